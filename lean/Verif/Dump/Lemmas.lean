import Verif.Dump.Spec
import Mathlib.Data.List.Perm.Basic
import Mathlib.Data.List.Nodup
import Mathlib.Data.List.Basic
/-
Lemmas about writing and reading project files.
-/
set_option autoImplicit false
namespace ML
open Spec

theorem viewKeyOrder_nodup : viewKeyOrder.Nodup := by decide +kernel
theorem fieldKeyOrder_nodup : fieldKeyOrder.Nodup := by decide +kernel
theorem modelKeyOrder_nodup : modelKeyOrder.Nodup := by decide +kernel

theorem copyOrder_nodup {α : Type} {order : List String} {d : List (String × α)} (ho : order.Nodup) (hd : IsDict d) :
    (copyOrder order d).Nodup := by
  unfold copyOrder
  rw [List.nodup_append]
  refine ⟨ho, List.Nodup.filter _ hd, ?_⟩
  intro a ha b hb hab
  subst hab
  have := (List.mem_filter.1 hb).2
  simp only [decide_eq_true_eq] at this
  exact this ha

theorem copyOrder_complete {α : Type} {order : List String} {d : List (String × α)} {k : String} (h : k ∈ d.map Prod.fst) :
    k ∈ copyOrder order d := by
  unfold copyOrder
  by_cases hk : k ∈ order
  · exact List.mem_append_left _ hk
  · exact List.mem_append_right _ (List.mem_filter.2 ⟨h, by simpa using hk⟩)

/-- Copying every key of a dictionary once gives the same entries. -/
theorem copy_perm {α : Type} {d : List (String × α)} {ks : List String} (hd : IsDict d) (hk : ks.Nodup) (hc : ∀ k ∈ d.map Prod.fst, k ∈ ks) :
    (ks.filterMap fun k => (dictGet d k).map fun v => (k, v)).Perm d := by
  have hd' : d.Nodup := List.Nodup.of_map _ hd
  have hn : (ks.filterMap fun k => (dictGet d k).map fun v => (k, v)).Nodup := by
    apply List.Nodup.filterMap _ hk
    intro a b x ha hb
    simp only [Option.mem_def, Option.map_eq_some_iff] at ha hb
    obtain ⟨v, -, rfl⟩ := ha
    obtain ⟨w, -, h⟩ := hb
    exact (congrArg Prod.fst h).symm
  rw [List.perm_ext_iff_of_nodup hn hd']
  rintro ⟨k, v⟩
  simp only [List.mem_filterMap, Option.map_eq_some_iff, Prod.mk.injEq]
  constructor
  · rintro ⟨k', -, v', h, rfl, rfl⟩
    exact dictGet_mem h
  · intro h
    exact ⟨k, hc k (List.mem_map_of_mem (f := Prod.fst) h), v, dictGet_of_mem hd h, rfl, rfl⟩

theorem sortField_perm {f : FieldDict} (h : IsDict f) : (sortField f).Perm f :=
  copy_perm h (copyOrder_nodup fieldKeyOrder_nodup h) fun _ hk => copyOrder_complete hk

theorem sortModel_perm {m : DumpDict} (h : IsDict m) : (sortModel m).Perm m :=
  copy_perm h (copyOrder_nodup modelKeyOrder_nodup h) fun _ hk => copyOrder_complete hk

theorem fieldRanks_ok {fs : List FieldDict} {ks : List ((ℕ × ℕ) × FieldDict)} (h : fieldRanks fs = .ok ks) :
    ks.map Prod.snd = fs ∧ ∀ k ∈ ks, fieldRank k.2 = .ok k.1 := by
  induction fs generalizing ks with
  | nil => simp only [fieldRanks] at h; cases h; simp
  | cons f fs ih =>
    simp only [fieldRanks] at h
    cases hr : fieldRank f with
    | error e => rw [hr] at h; cases h
    | ok k =>
      rw [hr] at h
      simp only at h
      cases hs : fieldRanks fs with
      | error e => rw [hs] at h; cases h
      | ok rest =>
        rw [hs] at h
        cases h
        obtain ⟨h1, h2⟩ := ih hs
        refine ⟨by simp [h1], ?_⟩
        intro x hx
        rcases List.mem_cons.1 hx with rfl | hx
        · exact hr
        · exact h2 x hx

theorem sortFields_ok {fs gs : List FieldDict} (h : sortFields fs = .ok gs) :
    ∃ ks, fieldRanks fs = .ok ks ∧ gs = (ks.mergeSort rankLe).map fun k => sortField k.2 := by
  unfold sortFields at h
  cases hr : fieldRanks fs with
  | error e => rw [hr] at h; cases h
  | ok ks => rw [hr] at h; cases h; exact ⟨ks, rfl, rfl⟩

theorem sortFields_same {fs gs : List FieldDict} (hd : ∀ f ∈ fs, IsDict f) (h : sortFields fs = .ok gs) :
    ∃ fs' : List FieldDict, fs'.Perm fs ∧ List.Forall₂ List.Perm fs' gs := by
  obtain ⟨ks, h1, rfl⟩ := sortFields_ok h
  obtain ⟨h2, -⟩ := fieldRanks_ok h1
  have hp : ((ks.mergeSort rankLe).map Prod.snd).Perm fs := by
    rw [← h2]; exact (List.mergeSort_perm ks rankLe).map _
  refine ⟨_, hp, ?_⟩
  rw [List.forall₂_map_left_iff, List.forall₂_map_right_iff, List.forall₂_same]
  intro k hk
  exact (sortField_perm (hd _ (hp.subset (List.mem_map_of_mem hk)))).symm

theorem viewValue_same {k : String} {v w : DumpVal} (hv : ∀ fs, v = .fields fs → k = "fields" ∧ ∀ f ∈ fs, IsDict f)
    (h : viewValue k v = .ok w) : SameEntry v w := by
  unfold viewValue at h
  split at h
  · cases v with
    | value s => cases h
    | fields fs =>
      simp only at h
      cases hs : sortFields fs with
      | error e => rw [hs] at h; cases h
      | ok gs =>
        rw [hs] at h
        cases h
        obtain ⟨fs', h1, h2⟩ := sortFields_same (hv fs rfl).2 hs
        exact .fields h1 h2
  · next hk =>
    cases h
    cases v with
    | value s => exact .value s
    | fields fs => exact absurd (hv fs rfl).1 hk

theorem sortViewKeys_ok {v d : DumpDict} {ks : List String} (h : sortViewKeys v ks = .ok d) :
    List.Forall₂ (fun x y => x.1 = y.1 ∧ viewValue x.1 x.2 = .ok y.2) (ks.filterMap fun k => (dictGet v k).map fun x => (k, x)) d := by
  induction ks generalizing d with
  | nil => simp only [sortViewKeys] at h; cases h; exact .nil
  | cons k ks ih =>
    simp only [sortViewKeys] at h
    cases hg : dictGet v k with
    | none => rw [hg] at h; simp only at h; simpa [hg] using ih h
    | some x =>
      rw [hg] at h
      simp only at h
      cases hv : viewValue k x with
      | error e => rw [hv] at h; cases h
      | ok y =>
        rw [hv] at h
        simp only at h
        cases hr : sortViewKeys v ks with
        | error e => rw [hr] at h; cases h
        | ok rest =>
          rw [hr] at h
          cases h
          simp only [List.filterMap_cons, hg, Option.map_some]
          exact .cons ⟨rfl, hv⟩ (ih hr)

theorem forall₂_imp_mem {α β : Type} {R S : α → β → Prop} {l : List α} {l' : List β} (h : List.Forall₂ R l l')
    (hi : ∀ a b, a ∈ l → R a b → S a b) : List.Forall₂ S l l' := by
  induction h with
  | nil => exact .nil
  | cons hx _ ih => exact .cons (hi _ _ List.mem_cons_self hx) (ih fun a b ha => hi a b (List.mem_cons_of_mem _ ha))

theorem sortView_same {v d : DumpDict} (hd : IsDict v) (ho : OnlyFields v) (h : sortView v = .ok d) : SameDict v d := by
  have hp := copy_perm hd (copyOrder_nodup viewKeyOrder_nodup hd) (fun k hk => copyOrder_complete (order := viewKeyOrder) hk)
  refine ⟨_, hp, ?_⟩
  refine forall₂_imp_mem (sortViewKeys_ok h) ?_
  rintro ⟨k, x⟩ ⟨k', y⟩ hx ⟨h1, h2⟩
  refine ⟨h1, viewValue_same (fun fs hfs => ?_) h2⟩
  simp only at hfs
  subst hfs
  exact ho k fs (hp.subset hx)

theorem private_iff (k : String) : isPrefix ['_'] k.toList = decide (Private k) := by
  rw [Bool.eq_iff_iff, decide_eq_true_eq]
  unfold isPrefix Private
  cases hk : k.toList with
  | nil => simp
  | cons c cs =>
    simp only [List.isPrefixOf, Bool.and_true, beq_iff_eq, List.cons.injEq]
    constructor
    · intro h; exact ⟨cs, h.symm, rfl⟩
    · rintro ⟨_, h, _⟩; exact h.symm

theorem writtenDict_eq (d : DumpDict) : writtenDict d = publicPart d := by
  unfold writtenDict publicPart
  exact List.filter_congr fun kv _ => by rw [private_iff]

/-! ### The same dictionary -/

theorem sameValue_refl_value {v : DumpVal} {s : String} (h : SameEntry (.value s) v) : v = .value s := by cases h; rfl

theorem Spec.SameDict.keys {d e : DumpDict} (h : SameDict d e) : (e.map Prod.fst).Perm (d.map Prod.fst) := by
  obtain ⟨d', h1, h2⟩ := h
  have : e.map Prod.fst = d'.map Prod.fst := by
    clear h1
    induction h2 with
    | nil => rfl
    | cons hx _ ih => simp [ih, hx.1]
  rw [this]
  exact h1.map _

theorem Spec.SameDict.isDict {d e : DumpDict} (h : SameDict d e) (hd : IsDict d) : IsDict e := h.keys.nodup_iff.2 hd

theorem Spec.SameDict.mem_value {d e : DumpDict} (h : SameDict d e) {k s : String} (hm : (k, DumpVal.value s) ∈ d) : (k, DumpVal.value s) ∈ e := by
  obtain ⟨d', h1, h2⟩ := h
  have hm := h1.symm.subset hm
  clear h1
  induction h2 with
  | nil => cases hm
  | cons hx _ ih =>
    rcases List.mem_cons.1 hm with hm | hm
    · subst hm
      rename_i y _ _ _
      obtain ⟨k', v⟩ := y
      obtain ⟨rfl, h'⟩ := hx
      have h' := sameValue_refl_value h'
      simp only at h'
      rw [h']
      exact List.mem_cons_self
    · exact List.mem_cons_of_mem _ (ih hm)

theorem sameDict_of_perm {d e : DumpDict} (h : e.Perm d) : SameDict d e := by
  refine ⟨e, h, ?_⟩
  rw [List.forall₂_same]
  rintro ⟨k, v⟩ _
  refine ⟨rfl, ?_⟩
  cases v with
  | value s => exact .value s
  | fields fs => exact .fields (List.Perm.refl _) (List.forall₂_same.2 fun f _ => List.Perm.refl f)

theorem Spec.SameDict.public {d e : DumpDict} (h : SameDict d e) : SameDict (publicPart d) (publicPart e) := by
  obtain ⟨d', h1, h2⟩ := h
  refine ⟨publicPart d', h1.filter _, ?_⟩
  clear h1
  unfold publicPart
  induction h2 with
  | nil => exact .nil
  | cons hx _ ih =>
    rw [List.filter_cons, List.filter_cons, ← hx.1]
    split
    · exact .cons hx ih
    · exact ih

theorem Spec.SameDict.append {d e : DumpDict} (h : SameDict d e) (kv : String × DumpVal) : SameDict (d ++ [kv]) (e ++ [kv]) := by
  obtain ⟨d', h1, h2⟩ := h
  refine ⟨d' ++ [kv], h1.append_right _, ?_⟩
  apply List.rel_append h2
  obtain ⟨k, v⟩ := kv
  refine .cons ⟨rfl, ?_⟩ .nil
  cases v with
  | value s => exact .value s
  | fields fs => exact .fields (List.Perm.refl _) (List.forall₂_same.2 fun f _ => List.Perm.refl f)

theorem Spec.SameDict.trans_perm {d d' e : DumpDict} (h : SameDict d e) (hp : d.Perm d') : SameDict d' e := by
  obtain ⟨x, h1, h2⟩ := h
  exact ⟨x, h1.trans hp, h2⟩

theorem dictSet_new {α : Type} {d : List (String × α)} {k : String} {v : α} (h : k ∉ d.map Prod.fst) : dictSet d k v = d ++ [(k, v)] := by
  induction d with
  | nil => rfl
  | cons x d ih =>
    obtain ⟨a, b⟩ := x
    simp only [List.map_cons, List.mem_cons, not_or] at h
    simp only [dictSet, if_neg (Ne.symm h.1), ih h.2, List.cons_append]

/-! ### Files -/

theorem dumpModels_ok {path folder : String} {ms : List DumpDict} {fs fs' : Files} (h : dumpModels path folder ms fs = (fs', none)) :
    ∃ ws : Files, List.Forall₂ (fun m w => dumpPath path folder "_model.yml" m = .ok w.1 ∧ w.2 = writtenDict (sortModel m)) ms ws ∧
      fs' = ws.foldl (fun d p => dictSet d p.1 p.2) fs := by
  induction ms generalizing fs with
  | nil => simp only [dumpModels, Prod.mk.injEq] at h; exact ⟨[], .nil, h.1.symm⟩
  | cons m ms ih =>
    simp only [dumpModels] at h
    cases hp : dumpPath path folder "_model.yml" m with
    | error e => rw [hp] at h; cases h
    | ok p =>
      rw [hp] at h
      obtain ⟨ws, h1, h2⟩ := ih h
      exact ⟨(p, writtenDict (sortModel m)) :: ws, .cons ⟨hp, rfl⟩ h1, h2⟩

theorem dumpViews_ok {path folder : String} {vs : List DumpDict} {fs fs' : Files} (h : dumpViews path folder vs fs = (fs', none)) :
    ∃ ws : Files, List.Forall₂ (fun v w => dumpPath path folder "_view.yml" v = .ok w.1 ∧ ∃ d, sortView v = .ok d ∧ w.2 = writtenDict d) vs ws ∧
      fs' = ws.foldl (fun d p => dictSet d p.1 p.2) fs := by
  induction vs generalizing fs with
  | nil => simp only [dumpViews, Prod.mk.injEq] at h; exact ⟨[], .nil, h.1.symm⟩
  | cons v vs ih =>
    simp only [dumpViews] at h
    cases hp : dumpPath path folder "_view.yml" v with
    | error e => rw [hp] at h; cases h
    | ok p =>
      rw [hp] at h
      simp only at h
      cases hs : sortView v with
      | error e => rw [hs] at h; cases h
      | ok d =>
        rw [hs] at h
        obtain ⟨ws, h1, h2⟩ := ih h
        exact ⟨(p, writtenDict d) :: ws, .cons ⟨hp, d, hs, rfl⟩ h1, h2⟩

theorem dumpProject_ok {path mf vf : String} {ms vs : List DumpDict} {fs fs' : Files} (h : dumpProject path mf vf ms vs fs = (fs', none)) :
    ∃ ws ws' : Files, List.Forall₂ (fun m w => dumpPath path mf "_model.yml" m = .ok w.1 ∧ w.2 = writtenDict (sortModel m)) ms ws ∧
      List.Forall₂ (fun v w => dumpPath path vf "_view.yml" v = .ok w.1 ∧ ∃ d, sortView v = .ok d ∧ w.2 = writtenDict d) vs ws' ∧
      fs' = (ws ++ ws').foldl (fun d p => dictSet d p.1 p.2) fs := by
  unfold dumpProject at h
  cases hm : dumpModels path mf ms fs with
  | mk f1 o =>
    rw [hm] at h
    cases o with
    | some e => simp at h
    | none =>
      simp only at h
      obtain ⟨ws, h1, h2⟩ := dumpModels_ok hm
      obtain ⟨ws', h3, h4⟩ := dumpViews_ok h
      exact ⟨ws, ws', h1, h3, by rw [h4, h2, List.foldl_append]⟩

/-- Writing to distinct paths. -/
theorem dictGet_writes {ws : Files} (hn : (ws.map Prod.fst).Nodup) (fs : Files) (k : String) :
    dictGet (ws.foldl (fun d p => dictSet d p.1 p.2) fs) k = match dictGet ws k with | some v => some v | none => dictGet fs k := by
  induction ws generalizing fs with
  | nil => rfl
  | cons w ws ih =>
    obtain ⟨a, b⟩ := w
    simp only [List.map_cons, List.nodup_cons] at hn
    rw [List.foldl_cons, ih hn.2]
    simp only [dictGet, dictGet_set]
    by_cases h : a = k
    · subst h
      have : dictGet ws a = none := by
        cases hg : dictGet ws a with
        | none => rfl
        | some v => exact absurd (List.mem_map_of_mem (f := Prod.fst) (dictGet_mem hg)) hn.1
      simp [this]
    · simp [h]

/-- Writing to distinct paths in an empty folder. -/
theorem writes_nil {ws acc : Files} (hn : ((acc ++ ws).map Prod.fst).Nodup) : ws.foldl (fun d p => dictSet d p.1 p.2) acc = acc ++ ws := by
  induction ws generalizing acc with
  | nil => simp
  | cons w ws ih =>
    rw [List.foldl_cons]
    have hw : w.1 ∉ acc.map Prod.fst := by
      rw [List.map_append, List.nodup_append] at hn
      intro h
      exact hn.2.2 _ h _ (by simp) rfl
    rw [dictSet_new hw, ih (by simpa using hn)]
    simp

end ML
