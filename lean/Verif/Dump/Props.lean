import Verif.Dump.Lemmas
import Verif.Names.Lemmas
import Verif.MergePlan.Texts
/-
C50: dumping keeps everything; dbt references name the right table.
-/
set_option autoImplicit false
namespace ML
open Spec

/-- **C50**, a dumped model has exactly the public entries of the model, in some order. -/
theorem C50_model (m : DumpDict) (h : IsDict m) : (writtenDict (sortModel m)).Perm (publicPart m) := by
  rw [writtenDict_eq]
  exact (sortModel_perm h).filter _

/-- **C50**, a dumped view has exactly the public entries of the view, and all of its fields, each with exactly its entries; only the
orders change. -/
theorem C50_view (v d : DumpDict) (hd : IsDict v) (ho : OnlyFields v) (h : sortView v = .ok d) : SameDict (publicPart v) (writtenDict d) := by
  rw [writtenDict_eq]
  exact (sortView_same hd ho h).public

/-- **C50**, a dumped field has exactly the entries of the field. -/
theorem C50_field (f : FieldDict) (h : IsDict f) : (sortField f).Perm f := sortField_perm h

theorem sortViewKeys_total {v : DumpDict} (h : ∀ x, dictGet v "fields" = some x → ∃ y, viewValue "fields" x = .ok y) (ks : List String) :
    ∃ d, sortViewKeys v ks = .ok d := by
  induction ks with
  | nil => exact ⟨[], rfl⟩
  | cons k ks ih =>
    obtain ⟨d, hd⟩ := ih
    simp only [sortViewKeys]
    cases hg : dictGet v k with
    | none => exact ⟨d, hd⟩
    | some x =>
      have : ∃ y, viewValue k x = .ok y := by
        by_cases hk : k = "fields"
        · subst hk; exact h x hg
        · exact ⟨x, by simp [viewValue, hk]⟩
      obtain ⟨y, hy⟩ := this
      simp only [hy, hd]
      exact ⟨_, rfl⟩

theorem fieldRank_ok {f : FieldDict} {t n : String} (hd : IsDict f) (ht : t ∈ ["dimension", "dimension_group", "measure"])
    (hf : ("field_type", t) ∈ f) (hn : ("name", n) ∈ f) :
    fieldRank f = .ok (["dimension", "dimension_group", "measure"].idxOf t, if containsSub "id".toList n.toList then 0 else 1) := by
  unfold fieldRank
  rw [dictGet_of_mem hd hf, dictGet_of_mem hd hn]
  simp only [ht, if_true]

theorem fieldRanks_total {fs : List FieldDict} (h : ∀ f ∈ fs, ∃ k, fieldRank f = .ok k) : ∃ ks, fieldRanks fs = .ok ks := by
  induction fs with
  | nil => exact ⟨[], rfl⟩
  | cons f fs ih =>
    obtain ⟨ks, hk⟩ := ih fun f hf => h f (List.mem_cons_of_mem _ hf)
    obtain ⟨k, hk'⟩ := h f List.mem_cons_self
    exact ⟨(k, f) :: ks, by simp [fieldRanks, hk', hk]⟩

/-- **C50**, every well-formed view can be dumped. -/
theorem C50_dumps (v : DumpDict) (h : WellFormedDict v) : ∃ d, sortView v = .ok d := by
  apply sortViewKeys_total
  intro x hx
  obtain ⟨fs, rfl, hf⟩ := h.2 x (dictGet_mem hx)
  obtain ⟨ks, hk⟩ := fieldRanks_total (fs := fs) fun f hf' => by
    obtain ⟨h1, ⟨t, ht, h2⟩, n, h3⟩ := hf f hf'
    exact ⟨_, fieldRank_ok h1 ht h2 h3⟩
  exact ⟨_, by simp only [viewValue, if_true, sortFields, hk]; rfl⟩

theorem rankLe_trans (a b c : (ℕ × ℕ) × FieldDict) : rankLe a b = true → rankLe b c = true → rankLe a c = true := by
  simp only [rankLe, decide_eq_true_eq]; omega

theorem rankLe_total (a b : (ℕ × ℕ) × FieldDict) : (rankLe a b || rankLe b a) = true := by
  simp only [rankLe, Bool.or_eq_true, decide_eq_true_eq]; omega

theorem idxOf_before {s t : String} (hs : s ∈ ["dimension", "dimension_group", "measure"]) (ht : t ∈ ["dimension", "dimension_group", "measure"]) :
    TypeBefore s t ↔ ["dimension", "dimension_group", "measure"].idxOf s < ["dimension", "dimension_group", "measure"].idxOf t := by
  simp only [List.mem_cons, List.not_mem_nil, or_false] at hs ht
  unfold TypeBefore
  rcases hs with rfl | rfl | rfl <;> rcases ht with rfl | rfl | rfl <;> decide +kernel

/-- **C50**, the order of the dumped fields: they are the fields of the view, dimensions first, then dimension groups, then measures;
within a type the fields with `id` in their name first; and fields that agree in both keep their order. -/
theorem C50_field_order (fs gs : List FieldDict) (hd : ∀ f ∈ fs, IsDict f) (h : sortFields fs = .ok gs) :
    ∃ l : List FieldDict, l.Perm fs ∧ gs = l.map sortField ∧
      (l.Pairwise fun a b => ∀ s t n n', ("field_type", s) ∈ a → ("field_type", t) ∈ b → ("name", n) ∈ a → ("name", n') ∈ b →
        TypeBefore s t ∨ s = t ∧ ("id".toList <:+: n'.toList → "id".toList <:+: n.toList)) ∧
      (∀ a b t n n', [a, b].Sublist fs → ("field_type", t) ∈ a → ("field_type", t) ∈ b → ("name", n) ∈ a → ("name", n') ∈ b →
        ("id".toList <:+: n.toList ↔ "id".toList <:+: n'.toList) → [a, b].Sublist l) := by
  obtain ⟨ks, h1, rfl⟩ := sortFields_ok h
  obtain ⟨h2, h3⟩ := fieldRanks_ok h1
  have hp : ((ks.mergeSort rankLe).map Prod.snd).Perm fs := by
    rw [← h2]; exact (List.mergeSort_perm ks rankLe).map _
  have rank : ∀ k : (ℕ × ℕ) × FieldDict, k ∈ ks → ∀ s n, ("field_type", s) ∈ k.2 → ("name", n) ∈ k.2 →
      s ∈ ["dimension", "dimension_group", "measure"] ∧ k.1 = (["dimension", "dimension_group", "measure"].idxOf s, if containsSub "id".toList n.toList then 0 else 1) := by
    intro k hk s n hs hn
    have hdk : IsDict k.2 := hd _ (by rw [← h2]; exact List.mem_map_of_mem hk)
    have hr := h3 k hk
    unfold fieldRank at hr
    rw [dictGet_of_mem hdk hs, dictGet_of_mem hdk hn] at hr
    simp only at hr
    split at hr
    · next hs' => exact ⟨hs', (Except.ok.inj hr).symm⟩
    · cases hr
  refine ⟨_, hp, by rw [List.map_map]; rfl, ?_, ?_⟩
  · rw [List.pairwise_map]
    refine List.Pairwise.imp_of_mem ?_ (List.pairwise_mergeSort rankLe_trans rankLe_total ks)
    intro a b ha hb hab s t n n' hs ht hn hn'
    obtain ⟨hs', ea⟩ := rank a ((List.mergeSort_perm ks rankLe).subset ha) s n hs hn
    obtain ⟨ht', eb⟩ := rank b ((List.mergeSort_perm ks rankLe).subset hb) t n' ht hn'
    simp only [rankLe, decide_eq_true_eq, ea, eb] at hab
    rcases hab with hab | ⟨hab, hid⟩
    · exact .inl ((idxOf_before hs' ht').2 hab)
    · refine .inr ⟨?_, fun hc => ?_⟩
      · exact (List.idxOf_inj hs').1 hab
      · rw [← containsSub_iff] at hc ⊢
        rw [if_pos hc] at hid
        by_cases hh : containsSub "id".toList n.toList = true
        · exact hh
        · rw [if_neg hh] at hid; omega
  · intro a b t n n' hab hs ht hn hn' hid
    rw [← h2] at hab
    obtain ⟨l', hl', he⟩ := List.sublist_map_iff.1 hab
    cases l' with
    | nil => simp at he
    | cons x l' =>
      cases l' with
      | nil => simp at he
      | cons y l' =>
        simp only [List.map_cons, List.cons.injEq] at he
        obtain ⟨rfl, rfl, he⟩ := he
        have : l' = [] := by cases l' with | nil => rfl | cons _ _ => simp at he
        subst this
        obtain ⟨-, ea⟩ := rank x (hl'.subset (by simp)) t n hs hn
        obtain ⟨-, eb⟩ := rank y (hl'.subset (by simp)) t n' ht hn'
        rw [← containsSub_iff, ← containsSub_iff] at hid
        have hle : rankLe x y = true := by
          simp only [rankLe, decide_eq_true_eq, ea, eb]
          refine .inr ⟨trivial, ?_⟩
          by_cases hh : containsSub "id".toList n.toList = true
          · rw [if_pos hh]; omega
          · rw [if_neg hh, if_neg (fun hh' => hh (hid.2 hh'))]
        exact (List.pair_sublist_mergeSort rankLe_trans rankLe_total hle hl').map Prod.snd

/-- **C50**, the files: when no two models or views have the same file, every model and view is in its own file afterwards, as dumped, and
every other file is as it was. -/
theorem C50_files (path mf vf : String) (ms vs : List DumpDict) (fs fs' : Files) (h : dumpProject path mf vf ms vs fs = (fs', none))
    (hp : ∀ ps qs, List.Forall₂ (fun m p => dumpPath path mf "_model.yml" m = .ok p) ms ps →
      List.Forall₂ (fun v p => dumpPath path vf "_view.yml" v = .ok p) vs qs → (ps ++ qs).Nodup) :
    (∀ m ∈ ms, ∃ p, dumpPath path mf "_model.yml" m = .ok p ∧ dictGet fs' p = some (writtenDict (sortModel m))) ∧
    (∀ v ∈ vs, ∃ p d, dumpPath path vf "_view.yml" v = .ok p ∧ sortView v = .ok d ∧ dictGet fs' p = some (writtenDict d)) ∧
    (∀ p, (∀ m ∈ ms, dumpPath path mf "_model.yml" m ≠ .ok p) → (∀ v ∈ vs, dumpPath path vf "_view.yml" v ≠ .ok p) → dictGet fs' p = dictGet fs p) := by
  obtain ⟨ws, ws', h1, h2, rfl⟩ := dumpProject_ok h
  have hn : ((ws ++ ws').map Prod.fst).Nodup := by
    rw [List.map_append]
    apply hp
    · rw [List.forall₂_map_right_iff]; exact h1.imp fun _ _ hh => hh.1
    · rw [List.forall₂_map_right_iff]; exact h2.imp fun _ _ hh => hh.1
  have mem : ∀ (k : String) (d : DumpDict), (k, d) ∈ ws ++ ws' → dictGet ((ws ++ ws').foldl (fun d p => dictSet d p.1 p.2) fs) k = some d := by
    intro k d hk
    rw [dictGet_writes hn, dictGet_of_mem hn hk]
  have left : ∀ m ∈ ms, ∃ w ∈ ws, dumpPath path mf "_model.yml" m = .ok w.1 ∧ w.2 = writtenDict (sortModel m) := by
    intro m hm
    clear hn mem hp h
    induction h1 with
    | nil => cases hm
    | cons hx _ ih =>
      rcases List.mem_cons.1 hm with rfl | hm
      · exact ⟨_, List.mem_cons_self, hx⟩
      · obtain ⟨w, hw, hh⟩ := ih hm
        exact ⟨w, List.mem_cons_of_mem _ hw, hh⟩
  have right : ∀ v ∈ vs, ∃ w ∈ ws', dumpPath path vf "_view.yml" v = .ok w.1 ∧ ∃ d, sortView v = .ok d ∧ w.2 = writtenDict d := by
    intro m hm
    clear hn mem hp h
    induction h2 with
    | nil => cases hm
    | cons hx _ ih =>
      rcases List.mem_cons.1 hm with rfl | hm
      · exact ⟨_, List.mem_cons_self, hx⟩
      · obtain ⟨w, hw, hh⟩ := ih hm
        exact ⟨w, List.mem_cons_of_mem _ hw, hh⟩
  have leftc : ∀ w ∈ ws, ∃ m ∈ ms, dumpPath path mf "_model.yml" m = .ok w.1 := by
    intro m hm
    clear hn mem hp h left
    induction h1 with
    | nil => cases hm
    | cons hx _ ih =>
      rcases List.mem_cons.1 hm with rfl | hm
      · exact ⟨_, List.mem_cons_self, hx.1⟩
      · obtain ⟨w, hw, hh⟩ := ih hm
        exact ⟨w, List.mem_cons_of_mem _ hw, hh⟩
  have rightc : ∀ w ∈ ws', ∃ m ∈ vs, dumpPath path vf "_view.yml" m = .ok w.1 := by
    intro m hm
    clear hn mem hp h right
    induction h2 with
    | nil => cases hm
    | cons hx _ ih =>
      rcases List.mem_cons.1 hm with rfl | hm
      · exact ⟨_, List.mem_cons_self, hx.1⟩
      · obtain ⟨w, hw, hh⟩ := ih hm
        exact ⟨w, List.mem_cons_of_mem _ hw, hh⟩
  refine ⟨?_, ?_, ?_⟩
  · intro m hm
    obtain ⟨⟨k, d⟩, hw, e1, e2⟩ := left m hm
    exact ⟨k, e1, by rw [← e2]; exact mem k d (List.mem_append_left _ hw)⟩
  · intro v hv
    obtain ⟨⟨k, d⟩, hw, e1, d', e2, e3⟩ := right v hv
    exact ⟨k, d', e1, e2, by rw [← e3]; exact mem k d (List.mem_append_right _ hw)⟩
  · intro p hm hv
    rw [dictGet_writes hn]
    cases hg : dictGet (ws ++ ws') p with
    | none => rfl
    | some d =>
      rcases List.mem_append.1 (dictGet_mem hg) with hw | hw
      · obtain ⟨m, hm', he⟩ := leftc _ hw
        exact absurd he (hm m hm')
      · obtain ⟨m, hm', he⟩ := rightc _ hw
        exact absurd he (hv m hm')

theorem textOf_mem {d : DumpDict} {k s : String} (hd : IsDict d) (h : (k, DumpVal.value s) ∈ d) : textOf d k = some s := by
  unfold textOf
  rw [dictGet_of_mem hd h]

theorem relPath_join {path f : String} (hp : path ≠ "") (hf : ¬ ∃ cs, f.toList = '/' :: cs) : relPath path (joinPath path f) = f := by
  have hf' : isPrefix ['/'] f.toList = false := by
    unfold isPrefix
    cases hc : f.toList with
    | nil => rfl
    | cons c cs =>
      by_cases h : c = '/'
      · exact absurd ⟨cs, by rw [hc, h]⟩ hf
      · simp only [List.isPrefixOf, Bool.and_true, beq_eq_false_iff_ne, ne_eq]; exact fun hh => h hh.symm
  unfold relPath joinPath
  simp only [hf', Bool.false_eq_true, if_false, hp, false_or]
  split
  · rw [if_pos (by unfold isPrefix; rw [List.isPrefixOf_iff_prefix, String.toList_append]; exact List.prefix_append _ _)]
    rw [String.toList_append, ← String.length_toList, List.drop_left, String.ofList_toList]
  · have e : (path ++ "/" ++ f).toList = (path ++ "/").toList ++ f.toList := String.toList_append
    rw [e, if_pos (by unfold isPrefix; rw [List.isPrefixOf_iff_prefix]; exact List.prefix_append _ _)]
    rw [← String.length_toList, List.drop_left, String.ofList_toList]

theorem same_written {d e : DumpDict} {f type : String} (hl : LoadedFrom f type d) (hs : SameDict d e) :
    SameDict d (dictSet (writtenDict e) "_file_path" (.value f)) ∧
      textOf (dictSet (writtenDict e) "_file_path" (.value f)) "type" = some type := by
  obtain ⟨hd, hf, ht, hp, -, -⟩ := hl
  have hpf : Private "_file_path" := by decide +kernel
  have hpt : ¬ Private "type" := by decide +kernel
  have hnew : "_file_path" ∉ (writtenDict e).map Prod.fst := by
    rw [writtenDict_eq]
    intro hm
    obtain ⟨kv, hkv, he⟩ := List.mem_map.1 hm
    have := (List.mem_filter.1 hkv).2
    rw [he] at this
    simp [hpf] at this
  rw [dictSet_new hnew, writtenDict_eq]
  refine ⟨(hs.public.append _).trans_perm ?_, ?_⟩
  · -- the public part and the file path are all of the dictionary
    have hd' : d.Nodup := List.Nodup.of_map _ hd
    rw [List.perm_ext_iff_of_nodup _ hd']
    · rintro ⟨k, v⟩
      simp only [publicPart, List.mem_append, List.mem_filter, List.mem_singleton, Prod.mk.injEq, Bool.not_eq_true', decide_eq_false_iff_not]
      constructor
      · rintro (h | ⟨rfl, rfl⟩)
        · exact h.1
        · exact hf
      · intro h
        by_cases hk : Private k
        · right
          have : k = "_file_path" := hp _ h hk
          subst this
          have := (dictGet_of_mem hd h).symm.trans (dictGet_of_mem hd hf)
          exact ⟨rfl, Option.some.inj this⟩
        · exact .inl ⟨h, hk⟩
    · rw [List.nodup_append]
      refine ⟨hd'.filter _, by simp, ?_⟩
      rintro ⟨k, v⟩ h1 y h2 rfl
      simp only [List.mem_singleton, Prod.mk.injEq] at h2
      have := (List.mem_filter.1 h1).2
      rw [h2.1] at this
      simp [hpf] at this
  · have he : IsDict e := hs.isDict hd
    have hm : ("type", DumpVal.value type) ∈ publicPart e := List.mem_filter.2 ⟨hs.mem_value ht, by simp [hpt]⟩
    apply textOf_mem
    · unfold IsDict
      rw [List.map_append, List.nodup_append]
      refine ⟨List.Nodup.sublist (List.Sublist.map _ List.filter_sublist) he, by simp, ?_⟩
      intro a ha b hb hab
      simp only [List.map_cons, List.map_nil, List.mem_singleton] at hb
      subst hb
      subst hab
      exact hnew (by rw [writtenDict_eq]; exact ha)
    · exact List.mem_append_left _ hm

/-- **C50**, dumping a loaded project and loading it again: when every model and view came from its own file, loading the files that were
written gives the same models and views, up to the order of files, keys and fields. -/
theorem C50_round_trip (path mf vf : String) (ms vs : List DumpDict) (files fs : Files) (hpath : path ≠ "")
    (hm : ∀ m ∈ ms, ∃ f, LoadedFrom f "model" m) (hv : ∀ v ∈ vs, (∃ f, LoadedFrom f "view" v) ∧ OnlyFields v)
    (h : dumpProject path mf vf ms vs [] = (files, none))
    (hp : ∀ ps qs, List.Forall₂ (fun m p => dumpPath path mf "_model.yml" m = .ok p) ms ps →
      List.Forall₂ (fun v p => dumpPath path vf "_view.yml" v = .ok p) vs qs → (ps ++ qs).Nodup)
    (hfs : fs.Perm files) :
    ∃ ms' vs', ms'.Perm (loadFiles path fs).1 ∧ vs'.Perm (loadFiles path fs).2 ∧
      List.Forall₂ SameDict ms ms' ∧ List.Forall₂ SameDict vs vs' := by
  obtain ⟨ws, ws', h1, h2, rfl⟩ := dumpProject_ok h
  have hn : ((ws ++ ws').map Prod.fst).Nodup := by
    rw [List.map_append]
    apply hp
    · rw [List.forall₂_map_right_iff]; exact h1.imp fun _ _ hh => hh.1
    · rw [List.forall₂_map_right_iff]; exact h2.imp fun _ _ hh => hh.1
  rw [writes_nil (acc := []) (by simpa using hn), List.nil_append] at hfs
  have path_eq : ∀ {folder suffix f type : String} {d : DumpDict} {p : String}, LoadedFrom f type d → dumpPath path folder suffix d = .ok p →
      relPath path p = f := by
    intro folder suffix f type d p hl hd
    unfold dumpPath at hd
    rw [textOf_mem hl.1 hl.2.1] at hd
    cases hd
    exact relPath_join hpath hl.2.2.2.2.2
  let g := fun f : String × DumpDict => dictSet f.2 "_file_path" (.value (relPath path f.1))
  have em : List.Forall₂ (fun m w => SameDict m (g w) ∧ textOf (g w) "type" = some "model") ms ws := by
    refine forall₂_imp_mem h1 ?_
    rintro m ⟨p, d⟩ hmm ⟨e1, e2⟩
    obtain ⟨f, hl⟩ := hm m hmm
    simp only at e1 e2
    subst e2
    have := same_written hl (sameDict_of_perm (sortModel_perm hl.1))
    simp only [g]
    rw [path_eq hl e1]
    exact this
  have ev : List.Forall₂ (fun v w => SameDict v (g w) ∧ textOf (g w) "type" = some "view") vs ws' := by
    refine forall₂_imp_mem h2 ?_
    rintro v ⟨p, d⟩ hvv ⟨e1, d', e2, e3⟩
    obtain ⟨⟨f, hl⟩, ho⟩ := hv v hvv
    simp only at e1 e3
    subst e3
    have := same_written hl (sortView_same hl.1 ho e2)
    simp only [g]
    rw [path_eq hl e1]
    exact this
  have keep : ∀ {xs : List DumpDict} {ys : Files} {t : String}, List.Forall₂ (fun m w => SameDict m (g w) ∧ textOf (g w) "type" = some t) xs ys →
      ∀ u, (ys.map g).filter (fun d => textOf d "type" == some u) = if t = u then ys.map g else [] := by
    intro xs ys t hf u
    induction hf with
    | nil => simp
    | cons hx _ ih =>
      simp only [List.map_cons, List.filter_cons, hx.2, ih]
      by_cases htu : t = u <;> simp [htu]
  refine ⟨ws.map g, ws'.map g, ?_, ?_, ?_, ?_⟩
  · have : (loadFiles path fs).1.Perm (((ws ++ ws').map g).filter fun d => textOf d "type" == some "model") := (hfs.map g).filter _
    rw [List.map_append, List.filter_append, keep em, keep ev] at this
    simpa using this.symm
  · have : (loadFiles path fs).2.Perm (((ws ++ ws').map g).filter fun d => textOf d "type" == some "view") := (hfs.map g).filter _
    rw [List.map_append, List.filter_append, keep em, keep ev] at this
    simpa using this.symm
  · rw [List.forall₂_map_right_iff]; exact em.imp fun _ _ hh => hh.1
  · rw [List.forall₂_map_right_iff]; exact ev.imp fun _ _ hh => hh.1

theorem copied_keys {α : Type} (order : List String) (d : List (String × α)) :
    ((copyOrder order d).filterMap fun k => (dictGet d k).map fun v => (k, v)).map Prod.fst =
      order.filter (fun k => decide (k ∈ d.map Prod.fst)) ++ (d.map Prod.fst).filter fun k => decide (k ∉ order) := by
  have key : ∀ ks : List String, (ks.filterMap fun k => (dictGet d k).map fun v => (k, v)).map Prod.fst = ks.filter fun k => decide (k ∈ d.map Prod.fst) := by
    intro ks
    induction ks with
    | nil => rfl
    | cons k ks ih =>
      rw [List.filterMap_cons, List.filter_cons]
      have hk := dictGet_isSome (d := d) (k := k)
      cases hg : dictGet d k with
      | none =>
        rw [hg] at hk
        simp only [Option.map_none, ih]
        rw [if_neg]
        intro h
        have := hk.2 (by simpa using h)
        simp at this
      | some v =>
        rw [hg] at hk
        simp only [Option.map_some, List.map_cons, ih]
        rw [if_pos (by simpa using hk.1 rfl)]
  rw [key, copyOrder, List.filter_append]
  congr 1
  rw [List.filter_eq_self]
  intro k hk
  simpa using (List.mem_filter.1 hk).1

/-- **C50**, the order of the keys of a dumped model: the usual keys first, in their order, then the others as they were. -/
theorem C50_model_key_order (m : DumpDict) : (sortModel m).map Prod.fst =
    ["version", "type", "name", "label", "connection", "fiscal_month_offset", "week_start_day", "access_grants"].filter (fun k => decide (k ∈ m.map Prod.fst)) ++
      (m.map Prod.fst).filter fun k =>
        decide (k ∉ ["version", "type", "name", "label", "connection", "fiscal_month_offset", "week_start_day", "access_grants"]) :=
  copied_keys modelKeyOrder m

theorem joinPath_append {a n m s : String} (hn : ¬ ∃ cs, n.toList = '/' :: cs) (hm : ¬ ∃ cs, m.toList = '/' :: cs)
    (hs : ¬ ∃ cs, s.toList = '/' :: cs) (h : joinPath a (n ++ s) = joinPath a (m ++ s)) : n = m := by
  have pre : ∀ x : String, (¬ ∃ cs, x.toList = '/' :: cs) → isPrefix ['/'] (x ++ s).toList = false := by
    intro x hx
    unfold isPrefix
    rw [String.toList_append]
    cases hc : x.toList with
    | nil =>
      cases hsc : s.toList with
      | nil => rfl
      | cons c cs =>
        simp only [List.nil_append, List.isPrefixOf, Bool.and_true, beq_eq_false_iff_ne, ne_eq]
        rintro rfl; exact hs ⟨cs, hsc⟩
    | cons c cs =>
      simp only [List.cons_append, List.isPrefixOf, Bool.and_true, beq_eq_false_iff_ne, ne_eq]
      rintro rfl; exact hx ⟨cs, hc⟩
  unfold joinPath at h
  simp only [pre n hn, pre m hm, Bool.false_eq_true, if_false] at h
  apply String.toList_injective
  split at h
  · have := congrArg String.toList h
    simp only [String.toList_append] at this
    exact List.append_cancel_right (List.append_cancel_left this)
  · have := congrArg String.toList h
    simp only [String.toList_append] at this
    exact List.append_cancel_right (List.append_cancel_left this)

/-- **C50**, views that are not from a file: different names give different files (names that start with `/` aside). The same holds for models. -/
theorem C50_paths (path folder : String) (v w : DumpDict) (n m : String) (hv : textOf v "_file_path" = none) (hw : textOf w "_file_path" = none)
    (hn : textOf v "name" = some n) (hm : textOf w "name" = some m) (hn' : ¬ ∃ cs, n.toList = '/' :: cs) (hm' : ¬ ∃ cs, m.toList = '/' :: cs)
    (hne : n ≠ m) :
    dumpPath path folder "_view.yml" v ≠ dumpPath path folder "_view.yml" w ∧ dumpPath path folder "_model.yml" v ≠ dumpPath path folder "_model.yml" w := by
  unfold dumpPath
  simp only [hv, hw, hn, hm, ne_eq, Except.ok.injEq]
  refine ⟨fun h => hne (joinPath_append hn' hm' ?_ h), fun h => hne (joinPath_append hn' hm' ?_ h)⟩
  · rintro ⟨cs, h⟩; rw [show "_view.yml".toList = ['_', 'v', 'i', 'e', 'w', '.', 'y', 'm', 'l'] from rfl] at h; simp at h
  · rintro ⟨cs, h⟩; rw [show "_model.yml".toList = ['_', 'm', 'o', 'd', 'e', 'l', '.', 'y', 'm', 'l'] from rfl] at h; simp at h

/-! ### dbt references -/

theorem lastPart_iff (n : List Char) : ∀ k : List Char, (splitChars '.' k).getLast? = some n ↔
    '.' ∉ n ∧ (k = n ∨ ∃ pre, k = pre ++ '.' :: n) := by
  intro k
  induction k with
  | nil =>
    simp only [splitChars, List.getLast?_singleton, Option.some.injEq]
    constructor
    · rintro rfl; simp
    · rintro ⟨-, h | ⟨pre, h⟩⟩
      · exact h
      · simp at h
  | cons c k ih =>
    by_cases hc : c = '.'
    · subst hc
      simp only [splitChars, if_true]
      rw [List.getLast?_cons]
      have hne := splitChars_ne_nil '.' k
      cases hg : (splitChars '.' k).getLast? with
      | none => simp at hg; exact absurd hg hne
      | some m =>
        simp only [Option.getD_some, Option.some.injEq]
        rw [hg] at ih
        simp only [Option.some.injEq] at ih
        rw [ih]
        constructor
        · rintro ⟨h1, rfl | ⟨pre, rfl⟩⟩
          · exact ⟨h1, .inr ⟨[], rfl⟩⟩
          · exact ⟨h1, .inr ⟨'.' :: pre, rfl⟩⟩
        · rintro ⟨h1, h | ⟨pre, h⟩⟩
          · exact absurd (by rw [← h]; simp) h1
          · cases pre with
            | nil => simp only [List.nil_append, List.cons.injEq, true_and] at h; exact ⟨h1, .inl h⟩
            | cons x pre => simp only [List.cons_append, List.cons.injEq] at h; exact ⟨h1, .inr ⟨pre, h.2⟩⟩
    · simp only [splitChars, hc, if_false]
      cases hs : splitChars '.' k with
      | nil => exact absurd hs (splitChars_ne_nil '.' k)
      | cons p ps =>
        rw [hs] at ih
        cases ps with
        | nil =>
          have hk : k = p := by
            have hlen := splitChars_intercalate '.' k
            rw [hs] at hlen
            simpa using hlen.symm
          have hnot : '.' ∉ p := splitChars_parts_noSep '.' k p (by rw [hs]; simp)
          subst hk
          simp only [List.getLast?_singleton, Option.some.injEq]
          constructor
          · rintro rfl
            exact ⟨by simp [hnot, Ne.symm hc], .inl rfl⟩
          · rintro ⟨h1, h | ⟨pre, h⟩⟩
            · exact h
            · exact absurd (show '.' ∈ c :: k by rw [h]; simp) (by simp [hnot, Ne.symm hc])
        | cons q ps =>
          rw [List.getLast?_cons_cons] at ih ⊢
          rw [ih]
          constructor
          · rintro ⟨h1, rfl | ⟨pre, rfl⟩⟩
            · exact absurd (splitChars_noSep '.' _ h1) (by rw [hs]; simp)
            · exact ⟨h1, .inr ⟨c :: pre, rfl⟩⟩
          · rintro ⟨h1, h | ⟨pre, h⟩⟩
            · have : '.' ∉ k := fun hh => h1 (by rw [← h]; exact List.mem_cons_of_mem _ hh)
              exact absurd (splitChars_noSep '.' _ this) (by rw [hs]; simp)
            · cases pre with
              | nil => simp only [List.nil_append, List.cons.injEq] at h; exact absurd h.1 hc
              | cons x pre => simp only [List.cons_append, List.cons.injEq] at h; exact ⟨h1, .inr ⟨pre, h.2⟩⟩

theorem nodeNamed_iff (key name : String) : (splitChars '.' key.toList).getLast? = some name.toList ↔ NodeNamed key name := by
  rw [lastPart_iff]
  unfold NodeNamed
  refine and_congr_right fun _ => or_congr ⟨fun h => String.toList_injective h, fun h => by rw [h]⟩ ?_
  constructor
  · rintro ⟨pre, h⟩
    refine ⟨String.ofList pre, String.toList_injective ?_⟩
    rw [h, String.toList_append, String.toList_append, String.toList_ofList]
    simp
  · rintro ⟨pre, rfl⟩
    exact ⟨pre.toList, by rw [String.toList_append, String.toList_append]; simp⟩

/-- **C50**, a dbt reference resolves to a node with that name, the first one in the manifest, in the schema of the connection when it has one;
without such a node it is a QueryError. -/
theorem C50_ref (nodes : List (String × DbtNode)) (schema : Option String) (name : String) :
    (∀ t, resolveDbtRef (some nodes) schema name = .ok t ↔ ∃ before key node after, nodes = before ++ (key, node) :: after ∧
      NodeNamed key name ∧ (∀ kn ∈ before, ¬ NodeNamed kn.1 name) ∧ t = schema.getD node.schema ++ "." ++ node.alias_) ∧
    (resolveDbtRef (some nodes) schema name = .error .query ↔ ∀ kn ∈ nodes, ¬ NodeNamed kn.1 name) := by
  have hres : ∀ n, resolveNode nodes name = .ok n ↔ ∃ before key after, nodes = before ++ (key, n) :: after ∧
      NodeNamed key name ∧ (∀ kn ∈ before, ¬ NodeNamed kn.1 name) := by
    intro n
    unfold resolveNode
    cases hf : nodes.find? fun kn => decide ((splitChars '.' kn.1.toList).getLast? = some name.toList) with
    | none =>
      simp only [reduceCtorEq, false_iff]
      rintro ⟨before, key, after, rfl, h1, -⟩
      rw [List.find?_eq_none] at hf
      have := hf (key, n) (by simp)
      simp only [decide_eq_true_eq] at this
      exact this ((nodeNamed_iff _ _).2 h1)
    | some kn =>
      obtain ⟨k, m⟩ := kn
      rw [List.find?_eq_some_iff_append] at hf
      obtain ⟨h0, as, bs, h1, h2⟩ := hf
      have h0' : NodeNamed k name := (nodeNamed_iff _ _).1 (by simpa using h0)
      have h2' : ∀ kn ∈ as, ¬ NodeNamed kn.1 name := fun kn hkn hh => by
        have := h2 kn hkn
        simp only [Bool.not_eq_true', decide_eq_false_iff_not] at this
        exact this ((nodeNamed_iff _ _).2 hh)
      simp only [Except.ok.injEq]
      constructor
      · rintro rfl
        exact ⟨as, k, bs, h1, h0', h2'⟩
      · rintro ⟨before, key, after, he, h3, h4⟩
        rw [h1] at he
        rcases List.append_eq_append_iff.1 he with ⟨a', ha, hb⟩ | ⟨c', ha, hb⟩
        · cases a' with
          | nil => simp at hb; exact hb.1.2
          | cons x a' =>
            simp only [List.cons_append, List.cons.injEq] at hb
            exact absurd h0' (h4 (k, m) (by rw [ha, ← hb.1]; simp))
        · cases c' with
          | nil => simp at hb; exact hb.1.2.symm
          | cons x a' =>
            simp only [List.cons_append, List.cons.injEq] at hb
            exact absurd h3 (h2' (key, n) (by rw [ha, ← hb.1]; simp))
  have hne : resolveNode nodes name = .error .query ↔ ∀ kn ∈ nodes, ¬ NodeNamed kn.1 name := by
    unfold resolveNode
    cases hf : nodes.find? fun kn => decide ((splitChars '.' kn.1.toList).getLast? = some name.toList) with
    | none =>
      simp only [true_iff]
      intro kn hkn hh
      have := List.find?_eq_none.1 hf kn hkn
      simp only [decide_eq_true_eq] at this
      exact this ((nodeNamed_iff _ _).2 hh)
    | some kn =>
      simp only [reduceCtorEq, false_iff, not_forall]
      have h1 := List.find?_some hf
      exact ⟨kn, List.mem_of_find?_eq_some hf, fun hh => hh ((nodeNamed_iff _ _).1 (by simpa using h1))⟩
  constructor
  · intro t
    simp only [resolveDbtRef, resolveName]
    cases hr : resolveNode nodes name with
    | error e =>
      simp only [reduceCtorEq, false_iff]
      rintro ⟨before, key, node, after, h1, h2, h3, -⟩
      have := (hres node).2 ⟨before, key, after, h1, h2, h3⟩
      rw [hr] at this
      cases this
    | ok n =>
      obtain ⟨before, key, after, h1, h2, h3⟩ := (hres n).1 hr
      constructor
      · intro h
        refine ⟨before, key, n, after, h1, h2, h3, ?_⟩
        cases schema <;> simpa [eq_comm] using h
      · rintro ⟨before', key', node', after', h1', h2', h3', rfl⟩
        have := (hres node').2 ⟨before', key', after', h1', h2', h3'⟩
        rw [hr] at this
        cases this
        cases schema <;> rfl
  · rw [← hne]
    simp only [resolveDbtRef, resolveName]
    cases hr : resolveNode nodes name with
    | error e => simp
    | ok n => cases schema <;> simp

theorem findText_append {p : List Char} {pre rest : List Char} (hp : p ≠ []) (h : ∀ k, k < pre.length → isPrefix p ((pre ++ p ++ rest).drop k) = false) :
    findText p (pre ++ p ++ rest) = some pre.length := by
  induction pre with
  | nil =>
    cases p with
    | nil => exact absurd rfl hp
    | cons c p => 
      simp only [List.nil_append, List.cons_append, findText]
      rw [if_pos (by unfold isPrefix; rw [List.isPrefixOf_iff_prefix]; exact ⟨rest, rfl⟩)]
      rfl
  | cons c pre ih =>
    simp only [List.cons_append, findText]
    have h0 := h 0 (by simp)
    simp only [List.drop_zero, List.cons_append] at h0
    rw [h0, if_neg (by simp), ih (fun k hk => by have := h (k + 1) (by simpa using hk); simpa using this)]
    rfl

theorem isPrefix_paren {l : List Char} (h : l.head? ≠ some ')') : isPrefix [')'] l = false := by
  unfold isPrefix
  cases l with
  | nil => rfl
  | cons c l =>
    simp only [List.head?_cons, ne_eq, Option.some.injEq] at h
    simp only [List.isPrefixOf, Bool.and_true, beq_eq_false_iff_ne, ne_eq]
    exact fun hh => h hh.symm

/-- **C50**, the name in a reference: in `…ref('name')…` without an earlier `ref(` or `)`, it is `name`. -/
theorem C50_ref_text (pre name post : List Char) (h1 : ')' ∉ pre) (h2 : ')' ∉ name) (h3 : '\'' ∉ name)
    (h4 : ∀ k, k < pre.length → isPrefix "ref(".toList ((pre ++ "ref(".toList ++ ('\'' :: name ++ ['\'', ')'] ++ post)).drop k) = false) :
    refArgument (pre ++ "ref('".toList ++ name ++ "')".toList ++ post) = name := by
  have e1 : pre ++ "ref('".toList ++ name ++ "')".toList ++ post = pre ++ "ref(".toList ++ ('\'' :: name ++ ['\'', ')'] ++ post) := by
    simp [show "ref('".toList = ['r', 'e', 'f', '(', '\''] from rfl, show "ref(".toList = ['r', 'e', 'f', '('] from rfl, show "')".toList = ['\'', ')'] from rfl]
  have hstart : findText "ref(".toList (pre ++ "ref('".toList ++ name ++ "')".toList ++ post) = some pre.length := by
    rw [e1]; exact findText_append (by decide) h4
  have e2 : pre ++ "ref('".toList ++ name ++ "')".toList ++ post = (pre ++ "ref('".toList ++ name ++ ['\'']) ++ [')'] ++ post := by
    simp [show "')".toList = ['\'', ')'] from rfl]
  have hstop : findText [')'] (pre ++ "ref('".toList ++ name ++ "')".toList ++ post) = some (pre ++ "ref('".toList ++ name ++ ['\'']).length := by
    rw [e2]
    apply findText_append (by simp)
    intro k hk
    apply isPrefix_paren
    rw [List.append_assoc, List.head?_drop, List.getElem?_append_left hk]
    intro hh
    have hm := List.mem_of_getElem? hh
    simp only [List.mem_append, List.mem_singleton, show "ref('".toList = ['r', 'e', 'f', '(', '\''] from rfl] at hm
    rcases hm with ((hm | hm) | hm) | hm
    · exact h1 hm
    · revert hm; decide
    · exact h2 hm
    · revert hm; decide
  unfold refArgument
  simp only [hstart, hstop]
  rw [e2, List.append_assoc _ [')'] post, List.take_left]
  have e3 : pre ++ "ref('".toList ++ name ++ ['\''] = (pre ++ "ref(".toList) ++ ('\'' :: name ++ ['\'']) := by
    simp [show "ref('".toList = ['r', 'e', 'f', '(', '\''] from rfl, show "ref(".toList = ['r', 'e', 'f', '('] from rfl]
  have e4 : pre.length + 4 = (pre ++ "ref(".toList).length := by simp [show "ref(".toList = ['r', 'e', 'f', '('] from rfl]
  rw [e3, e4, List.drop_left]
  simp only [List.cons_append, List.filter_cons, List.filter_append, List.filter_nil, bne_self_eq_false, Bool.false_eq_true, if_false, List.append_nil]
  rw [List.filter_eq_self]
  intro c hc
  simp only [bne_iff_ne, ne_eq]
  rintro rfl
  exact h3 hc

/-! ### Concrete cases -/

/-- A view as it is loaded from a file. -/
def dumpExample : DumpDict :=
  [("fields", .fields [[("sql", "1"), ("field_type", "measure"), ("name", "total")], [("name", "user_id"), ("field_type", "dimension"), ("tags", "x")],
      [("field_type", "dimension"), ("name", "age")]]),
   ("_file_path", .value "views/a.yml"), ("name", .value "a"), ("type", .value "view"), ("owner", .value "me")]

/-- A second file, a model. -/
def dumpExampleModel : DumpDict := [("name", .value "m"), ("_file_path", .value "models/m.yml"), ("type", .value "model"), ("mappings", .value "{}")]

example : IsDict dumpExample ∧ OnlyFields dumpExample ∧ WellFormedDict dumpExample ∧ LoadedFrom "views/a.yml" "view" dumpExample ∧
    LoadedFrom "models/m.yml" "model" dumpExampleModel := by
  refine ⟨by decide +kernel, ?_, ⟨by decide +kernel, ?_⟩, ⟨by decide +kernel, by decide +kernel, by decide +kernel, by decide +kernel, by decide +kernel, ?_⟩,
    ⟨by decide +kernel, by decide +kernel, by decide +kernel, by decide +kernel, by decide +kernel, ?_⟩⟩
  · intro k fs h
    simp only [dumpExample, List.mem_cons, Prod.mk.injEq, reduceCtorEq, and_false, or_false, List.not_mem_nil, DumpVal.fields.injEq] at h
    obtain ⟨rfl, rfl⟩ := h
    exact ⟨rfl, by decide +kernel⟩
  · intro v h
    simp only [dumpExample, List.mem_cons, Prod.mk.injEq, List.not_mem_nil, or_false] at h
    rcases h with ⟨-, rfl⟩ | ⟨h, -⟩ | ⟨h, -⟩ | ⟨h, -⟩ | ⟨h, -⟩
    · refine ⟨_, rfl, ?_⟩
      intro f hf
      simp only [List.mem_cons, List.not_mem_nil, or_false] at hf
      rcases hf with rfl | rfl | rfl
      · exact ⟨by decide +kernel, ⟨"measure", by decide +kernel, by decide +kernel⟩, "total", by decide +kernel⟩
      · exact ⟨by decide +kernel, ⟨"dimension", by decide +kernel, by decide +kernel⟩, "user_id", by decide +kernel⟩
      · exact ⟨by decide +kernel, ⟨"dimension", by decide +kernel, by decide +kernel⟩, "age", by decide +kernel⟩
    all_goals exact absurd h (by decide +kernel)
  · rintro ⟨cs, h⟩; revert h; rw [show "views/a.yml".toList = ['v', 'i', 'e', 'w', 's', '/', 'a', '.', 'y', 'm', 'l'] from rfl]; simp
  · rintro ⟨cs, h⟩; revert h; rw [show "models/m.yml".toList = ['m', 'o', 'd', 'e', 'l', 's', '/', 'm', '.', 'y', 'm', 'l'] from rfl]; simp

example : sortModel dumpExampleModel = [("type", .value "model"), ("name", .value "m"), ("_file_path", .value "models/m.yml"), ("mappings", .value "{}")] := by
  decide +kernel

example : sortFields [[("sql", "1"), ("field_type", "measure"), ("name", "total")], [("field_type", "dimension"), ("name", "age")],
      [("name", "user_id"), ("field_type", "dimension"), ("tags", "x")]] =
    .ok [[("name", "user_id"), ("field_type", "dimension"), ("tags", "x")], [("name", "age"), ("field_type", "dimension")],
      [("name", "total"), ("field_type", "measure"), ("sql", "1")]] := by
  have h : fieldRanks [[("sql", "1"), ("field_type", "measure"), ("name", "total")], [("field_type", "dimension"), ("name", "age")],
      [("name", "user_id"), ("field_type", "dimension"), ("tags", "x")]] =
    .ok [((2, 1), [("sql", "1"), ("field_type", "measure"), ("name", "total")]), ((0, 1), [("field_type", "dimension"), ("name", "age")]),
      ((0, 0), [("name", "user_id"), ("field_type", "dimension"), ("tags", "x")])] := by decide +kernel
  unfold sortFields
  rw [h]
  simp [List.mergeSort, List.MergeSort.Internal.splitInTwo, List.splitAt, List.splitAt.go, rankLe]
  decide +kernel

/-- A view without fields, for the round trip. -/
def dumpExampleView : DumpDict := [("_file_path", .value "views/b.yml"), ("sql_table_name", .value "b"), ("name", .value "b"), ("type", .value "view")]

example : dumpProject "repo/" "models" "views" [dumpExampleModel] [dumpExampleView] [] =
    ([("repo/models/m.yml", [("type", .value "model"), ("name", .value "m"), ("mappings", .value "{}")]),
      ("repo/views/b.yml", [("type", .value "view"), ("name", .value "b"), ("sql_table_name", .value "b")])], none) ∧
    loadFiles "repo/" [("repo/views/b.yml", [("type", .value "view"), ("name", .value "b"), ("sql_table_name", .value "b")]),
      ("repo/models/m.yml", [("type", .value "model"), ("name", .value "m"), ("mappings", .value "{}")])] =
    ([[("type", .value "model"), ("name", .value "m"), ("mappings", .value "{}"), ("_file_path", .value "models/m.yml")]],
     [[("type", .value "view"), ("name", .value "b"), ("sql_table_name", .value "b"), ("_file_path", .value "views/b.yml")]]) := by decide +kernel

/-- The files of the two are different, as `C50_files` and `C50_round_trip` ask. -/
example : ∀ ps qs, List.Forall₂ (fun m p => dumpPath "repo/" "models" "_model.yml" m = .ok p) [dumpExampleModel] ps →
    List.Forall₂ (fun v p => dumpPath "repo/" "views" "_view.yml" v = .ok p) [dumpExampleView] qs → (ps ++ qs).Nodup := by
  intro ps qs h1 h2
  cases h1 with
  | cons h1 h3 =>
    cases h3
    cases h2 with
    | cons h2 h4 =>
      cases h4
      rw [show dumpPath "repo/" "models" "_model.yml" dumpExampleModel = .ok "repo/models/m.yml" by decide +kernel] at h1
      rw [show dumpPath "repo/" "views" "_view.yml" dumpExampleView = .ok "repo/views/b.yml" by decide +kernel] at h2
      cases h1
      cases h2
      decide +kernel

/-- **C50 fails** for a view without its `type`: the dumped file is ignored when the project is loaded. -/
theorem C50_untyped :
    loadFiles "repo" (dumpProject "repo" "models" "views" [] [[("name", .value "a"), ("sql_table_name", .value "x")]] []).1 = ([], []) := by decide +kernel

/-- **C50 fails** for two views with one name and no file of their own (say, of two models): the second file overwrites the first. -/
theorem C50_overwritten :
    (dumpProject "repo" "models" "views" [] [[("name", .value "a"), ("sql_table_name", .value "x")], [("name", .value "a"), ("sql_table_name", .value "y")]] []).1 =
      [("repo/views/a_view.yml", [("name", .value "a"), ("sql_table_name", .value "y")])] := by decide +kernel

/-- **C50 fails** for an unknown type of field: nothing is written for the view and for the views after it. -/
theorem C50_unknown_type :
    dumpProject "repo" "models" "views" [] [[("name", .value "a"), ("fields", .fields [[("name", "x"), ("field_type", "filter")]])], [("name", .value "b")]] [] =
      ([], some .valueError) := by decide +kernel

/-- **C50 fails** when a seed, a snapshot or a model of another package has the name of a model: the first node wins. -/
theorem C50_ref_ambiguous :
    resolveDbtRef (some [("seed.raw.orders", ⟨"raw", "orders_seed"⟩), ("model.shop.orders", ⟨"prod", "orders"⟩)]) none "orders" = .ok "raw.orders_seed" := by
  decide +kernel

/-- **C50 fails** for a reference in double quotes, and for one with a package: the name is not found. -/
theorem C50_ref_quotes :
    refArgument "ref(\"orders\")".toList = "\"orders\"".toList ∧ refArgument "ref('shop', 'orders')".toList = "shop, orders".toList := by
  decide +kernel

example : refArgument ("{{ ".toList ++ "ref('".toList ++ "orders".toList ++ "')".toList ++ " }}".toList) = "orders".toList :=
  C50_ref_text _ _ _ (by decide +kernel) (by decide +kernel) (by decide +kernel) (by decide +kernel)

end ML
