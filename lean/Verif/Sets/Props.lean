import Verif.Sets.Lemmas
/-
C30: field sets follow set algebra.
-/
set_option autoImplicit false
namespace ML
open Spec

/-- C30 (a): whatever relation `M` satisfies the equations of set
algebra for all sets in question, an expansion lists exactly the members of the set, each once. That such a
relation exists for sets without cyclic references is (e). -/
theorem C30_algebra (env : SetEnv) (s₀ : SetDef) (items : SetDef → List SetItem)
    (M : SetDef → String → Prop) (hw : WrittenAs env s₀ items)
    (hM : SetAlgebra env s₀ items M) (fuel : ℕ) (s : SetDef) (hs : s ∈ setsAround env s₀) (out : List String)
    (h : setFieldNames env fuel s = .ok out) :
    out.Nodup ∧ ∀ f, f ∈ out ↔ M s f := by
  induction fuel generalizing s out with
  | zero => cases h
  | succ n ih =>
    simp only [setFieldNames] at h
    obtain ⟨hf, hok⟩ := hw s hs
    rw [hf] at h
    cases he : setEntries env (setFieldNames env n) s ((items s).map SetItem.text) with
    | error e => rw [he] at h; cases h
    | ok r =>
      obtain ⟨all, excl⟩ := r
      rw [he] at h
      injection h with h
      subst h
      refine ⟨nodup_setResult _ _, fun f => ?_⟩
      obtain ⟨src, h1, h2, h3⟩ := setEntries_spec env _ s (items s) hok all excl he
      have key : ∀ i ∈ items s, ∀ f, f ∈ src i ↔ Means env M s i f := by
        intro i hi f
        exact source_means env _ M s i (hok i hi)
          (fun hst t ht out' ho => (ih t (namedSet_mem env s₀ i t ht) out' ho).2) (src i) (h1 i hi) f
      rw [mem_setResult, hM s hs f, h2, h3]
      simp only [List.mem_flatMap]
      constructor
      · rintro ⟨⟨i, hi, hif⟩, hno⟩
        refine ⟨⟨i, hi, ?_⟩, ?_⟩
        · cases hm : i.minus with
          | true => rw [hm] at hif; cases hif
          | false => rw [hm] at hif; exact ⟨rfl, (key i hi f).mp hif⟩
        · rintro ⟨j, hj, hjm, hjf⟩
          exact hno ⟨j, hj, by rw [hjm]; exact (key j hj f).mpr hjf⟩
      · rintro ⟨⟨i, hi, him, hif⟩, hno⟩
        refine ⟨⟨i, hi, by rw [him]; exact (key i hi f).mpr hif⟩, ?_⟩
        rintro ⟨j, hj, hjf⟩
        cases hm : j.minus with
        | true => rw [hm] at hjf; exact hno ⟨j, hj, hm, (key j hj f).mp hjf⟩
        | false => rw [hm] at hjf; cases hjf

/-- C30 (b): for sets without cyclic references whose fields have a view, the expansion is defined as soon
as the recursion limit exceeds the depth of the references. -/
theorem C30_defined (env : SetEnv) (s₀ : SetDef) (items : SetDef → List SetItem) (rank : SetDef → ℕ)
    (hw : WrittenAs env s₀ items) (hc : NoCycle env s₀ items rank) (hr : Resolvable env s₀ items)
    (fuel : ℕ) (s : SetDef) (hs : s ∈ setsAround env s₀) (hfuel : rank s < fuel) :
    ∃ out, setFieldNames env fuel s = .ok out := by
  induction fuel generalizing s with
  | zero => omega
  | succ n ih =>
    simp only [setFieldNames]
    obtain ⟨hf, hok⟩ := hw s hs
    rw [hf]
    have src : ∀ i ∈ items s, ∃ l, entrySource env (setFieldNames env n) s i = .ok l := by
      intro i hi
      obtain ⟨r1, r2⟩ := hr s hs i hi
      unfold entrySource
      cases hst : i.star with
      | true =>
        simp only [if_true]
        unfold setReference
        by_cases ha : i.view = none ∧ i.name = "ALL_FIELDS"
        · rw [if_pos ((bare_allFields i (hok i hi)).mpr ha)]
          exact r2 hst ha.2
        · rw [if_neg (fun c => ha ((bare_allFields i (hok i hi)).mp c)), bare_parts i (hok i hi)]
          cases hg : env.getSet i.name i.view with
          | none => exact ⟨[], rfl⟩
          | some t =>
            have ht := (getSet_iff env i (hok i hi) t).mp hg
            have := hc s hs i hi hst t ht
            exact ih t (namedSet_mem env s₀ i t ht) (by omega)
      | false =>
        simp only [Bool.false_eq_true, if_false]
        unfold setFieldName
        rw [bare_parts i (hok i hi)]
        unfold setViewName
        cases hv : i.view with
        | some v => simp [((hok i hi).view v hv).2]
        | none =>
          obtain ⟨v, e1, e2⟩ := r1 hst hv
          simp [e1, e2]
    have : ∀ is : List SetItem, (∀ i ∈ is, i ∈ items s) →
        ∃ r, setEntries env (setFieldNames env n) s (is.map SetItem.text) = .ok r := by
      intro is
      induction is with
      | nil => intro _; exact ⟨_, rfl⟩
      | cons i is ih2 =>
        intro hsub
        obtain ⟨l, hl⟩ := src i (hsub i (by simp))
        obtain ⟨⟨as, xs⟩, h2⟩ := ih2 (fun j hj => hsub j (by simp [hj]))
        simp only [List.map_cons, setEntries, setEntry_text env _ s i (hok i (hsub i (by simp))), hl, h2, Except.map]
        cases i.minus <;> exact ⟨_, rfl⟩
    obtain ⟨⟨all, excl⟩, h⟩ := this (items s) (fun i hi => hi)
    rw [h]
    exact ⟨_, rfl⟩

/-- C30 (c): the members stand in the order in which they are first included: in the concatenation of what
the entries without a minus list, the first position of an earlier member is before that of a later one. -/
theorem C30_order (env : SetEnv) (s₀ : SetDef) (items : SetDef → List SetItem) (hw : WrittenAs env s₀ items)
    (fuel : ℕ) (s : SetDef) (hs : s ∈ setsAround env s₀) (out : List String)
    (h : setFieldNames env (fuel + 1) s = .ok out) :
    ∃ lists : SetItem → List String,
      (∀ i ∈ items s, i.star = true → ¬ (i.view = none ∧ i.name = "ALL_FIELDS") →
        (∀ t, NamedSet env i t → setFieldNames env fuel t = .ok (lists i)) ∧
        ((∀ t, ¬ NamedSet env i t) → lists i = [])) ∧
      (∀ i ∈ items s, i.star = true → i.view = none → i.name = "ALL_FIELDS" →
        env.allFields s.viewName = .ok (lists i)) ∧
      (∀ i ∈ items s, i.star = false → ∃ v, (i.view = some v ∨ (i.view = none ∧ s.viewName = some v)) ∧
        lists i = [v ++ "." ++ i.name]) ∧
      out.Pairwise (fun a b =>
        (((items s).filter (fun i => !i.minus)).flatMap lists).idxOf a <
          (((items s).filter (fun i => !i.minus)).flatMap lists).idxOf b) := by
  simp only [setFieldNames] at h
  obtain ⟨hf, hok⟩ := hw s hs
  rw [hf] at h
  cases he : setEntries env (setFieldNames env fuel) s ((items s).map SetItem.text) with
  | error e => rw [he] at h; cases h
  | ok r =>
    obtain ⟨all, excl⟩ := r
    rw [he] at h
    injection h with h
    subst h
    obtain ⟨src, h1, h2, h3⟩ := setEntries_spec env _ s (items s) hok all excl he
    have hall : ((items s).filter (fun i => !i.minus)).flatMap src = all := by
      rw [h2]
      generalize items s = is
      induction is with
      | nil => rfl
      | cons i is ih => cases hm : i.minus <;> simp [hm, ih]
    refine ⟨src, ?_, ?_, ?_, by rw [hall]; exact sorted_setResult all excl⟩
    · intro i hi hst ha
      have hsrc := h1 i hi
      unfold entrySource setReference at hsrc
      rw [hst, if_pos rfl, if_neg (fun c => ha ((bare_allFields i (hok i hi)).mp c)), bare_parts i (hok i hi)] at hsrc
      constructor
      · intro t ht
        rw [(getSet_iff env i (hok i hi) t).mpr ht] at hsrc
        exact hsrc
      · intro hno
        cases hg : env.getSet i.name i.view with
        | none => rw [hg] at hsrc; injection hsrc with hsrc; exact hsrc.symm
        | some t => exact absurd ((getSet_iff env i (hok i hi) t).mp hg) (hno t)
    · intro i hi hst hv ha
      have hsrc := h1 i hi
      unfold entrySource setReference at hsrc
      rw [hst, if_pos rfl, if_pos ((bare_allFields i (hok i hi)).mpr ⟨hv, ha⟩)] at hsrc
      exact hsrc
    · intro i hi hst
      have hsrc := h1 i hi
      have hm := source_means env (setFieldNames env fuel) (fun _ _ => False) s i (hok i hi)
        (by rw [hst]; intro c; cases c) (src i) hsrc
      unfold entrySource at hsrc
      rw [hst] at hsrc
      simp only [Bool.false_eq_true, if_false] at hsrc
      cases hn : setFieldName s i.bare with
      | error e => rw [hn] at hsrc; cases hsrc
      | ok f =>
        rw [hn] at hsrc
        injection hsrc with hsrc
        have := (hm f).mp (by rw [← hsrc]; simp)
        unfold Means at this
        rw [hst] at this
        simp only [Bool.false_eq_true, if_false] at this
        obtain ⟨v, hv, hfv⟩ := this
        exact ⟨v, hv, by rw [← hsrc, hfv]⟩

/-- C30 (d): a set that refers to itself never expands, whatever the recursion limit. -/
theorem C30_cycle (fuel : ℕ) :
    setFieldNames ⟨[("orders", [⟨"a", ["a*"], some "orders"⟩])], fun _ => .ok []⟩ fuel ⟨"a", ["a*"], some "orders"⟩ =
      .error .recursion := by
  induction fuel with
  | zero => rfl
  | succ n ih =>
    have e2 : ('*' ∈ "a*".toList) = True := by decide
    have e3 : without '*' "a*" = "a" := by decide
    have e4 : ("a" = "ALL_FIELDS") = False := by decide
    have e5 : fieldNameParts "a" = (none, none, "a") := by decide
    have e6 : (SetEnv.mk [("orders", [SetDef.mk "a" ["a*"] (some "orders")])] (fun _ => .ok [])).getSet "a" none =
      some ⟨"a", ["a*"], some "orders"⟩ := by decide
    have e7 : ('-' ∈ "a*".toList) = False := by decide
    simp only [setFieldNames, setEntries, setEntry, e2, e7, and_false, e3, setReference, e4, e5, e6, if_true, if_false,
      ih]

/-- C30 (e): for sets without cyclic references the members are well defined: exactly one relation satisfies
the equations, up to the sets in question. -/
theorem C30_well_defined (env : SetEnv) (s₀ : SetDef) (items : SetDef → List SetItem) (rank : SetDef → ℕ)
    (hw : WrittenAs env s₀ items) (hc : NoCycle env s₀ items rank) (hr : Resolvable env s₀ items) :
    ∃ M, SetAlgebra env s₀ items M ∧
      ∀ M', SetAlgebra env s₀ items M' → ∀ s ∈ setsAround env s₀, ∀ f, M s f ↔ M' s f := by
  refine ⟨fun s f => ∃ n out, setFieldNames env n s = .ok out ∧ f ∈ out, ?_, ?_⟩
  · intro s hs f
    obtain ⟨out, ho⟩ := C30_defined env s₀ items rank hw hc hr (rank s + 1) s hs (by omega)
    have uniq : ∀ (t : SetDef) (m : ℕ) (l : List String), setFieldNames env m t = .ok l →
        ∀ g, g ∈ l ↔ ∃ n out, setFieldNames env n t = .ok out ∧ g ∈ out := by
      intro t m l hl g
      constructor
      · intro hg; exact ⟨m, l, hl, hg⟩
      · rintro ⟨n, l', hl', hg⟩
        have a := setFieldNames_mono_le env m (max m n) (le_max_left _ _) t l hl
        have b := setFieldNames_mono_le env n (max m n) (le_max_right _ _) t l' hl'
        rw [a] at b; injection b with b; rw [b]; exact hg
    refine Iff.trans (uniq s _ out ho f).symm ?_
    simp only [setFieldNames] at ho
    obtain ⟨hf, hok⟩ := hw s hs
    rw [hf] at ho
    cases he : setEntries env (setFieldNames env (rank s)) s ((items s).map SetItem.text) with
    | error e => rw [he] at ho; cases ho
    | ok r =>
      obtain ⟨all, excl⟩ := r
      rw [he] at ho
      injection ho with ho
      subst ho
      obtain ⟨src, h1, h2, h3⟩ := setEntries_spec env _ s (items s) hok all excl he
      have key : ∀ i ∈ items s, ∀ f, f ∈ src i ↔
          Means env (fun s f => ∃ n out, setFieldNames env n s = .ok out ∧ f ∈ out) s i f := by
        intro i hi f
        exact source_means env _ _ s i (hok i hi) (fun hst t ht out' ho' g => uniq t _ out' ho' g) (src i) (h1 i hi) f
      rw [mem_setResult, h2, h3]
      simp only [List.mem_flatMap]
      constructor
      · rintro ⟨⟨i, hi, hif⟩, hno⟩
        refine ⟨⟨i, hi, ?_⟩, ?_⟩
        · cases hm : i.minus with
          | true => rw [hm] at hif; cases hif
          | false => rw [hm] at hif; exact ⟨rfl, (key i hi f).mp hif⟩
        · rintro ⟨j, hj, hjm, hjf⟩
          exact hno ⟨j, hj, by rw [hjm]; exact (key j hj f).mpr hjf⟩
      · rintro ⟨⟨i, hi, him, hif⟩, hno⟩
        refine ⟨⟨i, hi, by rw [him]; exact (key i hi f).mpr hif⟩, ?_⟩
        rintro ⟨j, hj, hjf⟩
        cases hm : j.minus with
        | true => rw [hm] at hjf; exact hno ⟨j, hj, hm, (key j hj f).mp hjf⟩
        | false => rw [hm] at hjf; cases hjf
  · intro M' hM' s hs f
    obtain ⟨out, ho⟩ := C30_defined env s₀ items rank hw hc hr (rank s + 1) s hs (by omega)
    have h1 := (C30_algebra env s₀ items M' hw hM' _ s hs out ho).2 f
    rw [← h1]
    constructor
    · rintro ⟨n, l', hl', hg⟩
      have a := setFieldNames_mono_le env _ (max (rank s + 1) n) (le_max_left _ _) s out ho
      have b := setFieldNames_mono_le env n (max (rank s + 1) n) (le_max_right _ _) s l' hl'
      rw [a] at b; injection b with b; rw [b]; exact hg
    · intro hg; exact ⟨_, out, ho, hg⟩

/-- C30 (f): an entry that contains a minus anywhere is an exclusion, and a set that does not exist
contributes nothing instead of being reported. -/
theorem C30_silent :
    setFieldNames ⟨[], fun _ => .ok []⟩ 1 ⟨"a", ["net-sales", "id", "typo*"], some "orders"⟩ = .ok ["orders.id"] := by
  decide +kernel

/-! #### A project that meets the hypotheses -/

def setKeys : SetDef := ⟨"keys", ["id", "customers.id"], some "orders"⟩
def setShown : SetDef := ⟨"shown", ["total", "-customers.id", "ALL_FIELDS*", "-hidden.x*", "keys*", "total"], some "orders"⟩
def setEnvEx : SetEnv := ⟨[("orders", [setKeys, setShown])],
  fun v => if v = some "orders" then .ok ["orders.id", "orders.total", "orders.name"] else .error .accessDenied⟩
def setItemsEx (s : SetDef) : List SetItem :=
  if s = setKeys then [⟨false, false, none, "id"⟩, ⟨false, false, some "customers", "id"⟩]
  else [⟨false, false, none, "total"⟩, ⟨true, false, some "customers", "id"⟩, ⟨false, true, none, "ALL_FIELDS"⟩,
    ⟨true, true, some "hidden", "x"⟩, ⟨false, true, none, "keys"⟩, ⟨false, false, none, "total"⟩]

theorem setEx_written : WrittenAs setEnvEx setShown setItemsEx := by
  intro s hs
  have : s = setShown ∨ s = setKeys := by
    simp [setsAround, setEnvEx] at hs
    rcases hs with h | h | h <;> simp [h]
  have ok : ∀ i : SetItem, ('.' ∉ i.name.toList ∧ '*' ∉ i.name.toList ∧ '-' ∉ i.name.toList) →
      (∀ v ∈ i.view, ('.' ∉ v.toList ∧ '*' ∉ v.toList ∧ '-' ∉ v.toList) ∧ v ≠ "") → i.Ok :=
    fun i h1 h2 => ⟨h1, fun v hv => h2 v hv⟩
  rcases this with rfl | rfl
  · refine ⟨by decide, fun i hi => ok i ?_ ?_⟩ <;> revert i <;> decide
  · refine ⟨by decide, fun i hi => ok i ?_ ?_⟩ <;> revert i <;> decide

theorem setEx_noCycle : NoCycle setEnvEx setShown setItemsEx (fun s => if s = setShown then 1 else 0) := by
  intro s hs i hi hst t ht
  have : s = setShown ∨ s = setKeys := by
    simp [setsAround, setEnvEx] at hs
    rcases hs with h | h | h <;> simp [h]
  rcases this with rfl | rfl
  · have hg : setEnvEx.getSet i.name i.view = some t :=
      (getSet_iff _ i ((setEx_written setShown (by simp [setsAround])).2 i hi) t).mpr ht
    have key : ∀ i ∈ setItemsEx setShown, i.star = true →
        setEnvEx.getSet i.name i.view = none ∨ setEnvEx.getSet i.name i.view = some setKeys := by decide
    rcases key i hi hst with h | h
    · rw [h] at hg; cases hg
    · rw [h] at hg; injection hg with hg; subst hg; decide
  · have key : ∀ i ∈ setItemsEx setKeys, i.star = false := by decide
    rw [key i hi] at hst; cases hst

example : Resolvable setEnvEx setShown setItemsEx := by
  intro s hs i hi
  have : s = setShown ∨ s = setKeys := by
    simp [setsAround, setEnvEx] at hs
    rcases hs with h | h | h <;> simp [h]
  rcases this with rfl | rfl
  · exact ⟨fun _ _ => ⟨"orders", rfl, by decide⟩, fun _ _ => ⟨_, rfl⟩⟩
  · exact ⟨fun _ _ => ⟨"orders", rfl, by decide⟩, fun _ _ => ⟨_, rfl⟩⟩

/-- The excluded `customers.id` is gone although it is included after the exclusion; `total` comes first. -/
example : setFieldNames setEnvEx 2 setShown = .ok ["orders.total", "orders.id", "orders.name"] := by decide +kernel

end ML
