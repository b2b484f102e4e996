import Verif.Column.Spec
import Verif.Answer.PropsEx
import Verif.Duration.Props
/-
C79: which fields share a column or a label.
-/
set_option autoImplicit false
namespace ML
open Spec

/-- Two ways to cut a text at an underscore: at the same place, or one after the other. -/
theorem cut_twice (a b x y : List Char) (h : a ++ '_' :: x = b ++ '_' :: y) :
    a = b ∧ x = y ∨ (∃ t, b = a ++ '_' :: t ∧ x = t ++ '_' :: y) ∨ ∃ t, a = b ++ '_' :: t ∧ y = t ++ '_' :: x := by
  rcases List.append_eq_append_iff.mp h with ⟨t, e1, e2⟩ | ⟨t, e1, e2⟩
  · cases t with
    | nil => simp at e1 e2; exact .inl ⟨e1.symm, e2⟩
    | cons c t =>
      simp only [List.cons_append, List.cons.injEq] at e2
      obtain ⟨rfl, e2⟩ := e2
      exact .inr (.inl ⟨t, e1, e2⟩)
  · cases t with
    | nil => simp at e1 e2; exact .inl ⟨e1, e2.symm⟩
    | cons c t =>
      simp only [List.cons_append, List.cons.injEq] at e2
      obtain ⟨rfl, e2⟩ := e2
      exact .inr (.inr ⟨t, e1, e2⟩)

theorem cut_toList (a x : String) : (a ++ "_" ++ x).toList = a.toList ++ '_' :: x.toList := by
  simp [String.toList_append]

theorem cut_iff (a b x y : String) : a ++ "_" ++ x = b ++ "_" ++ y ↔
    a = b ∧ x = y ∨ (∃ t, b = a ++ "_" ++ t ∧ x = t ++ "_" ++ y) ∨ ∃ t, a = b ++ "_" ++ t ∧ y = t ++ "_" ++ x := by
  constructor
  · intro h
    have h := congrArg String.toList h
    rw [cut_toList, cut_toList] at h
    rcases cut_twice _ _ _ _ h with ⟨e1, e2⟩ | ⟨t, e1, e2⟩ | ⟨t, e1, e2⟩
    · exact .inl ⟨String.toList_inj.mp e1, String.toList_inj.mp e2⟩
    · refine .inr (.inl ⟨String.ofList t, String.toList_inj.mp ?_, String.toList_inj.mp ?_⟩) <;> rw [cut_toList] <;> simpa
    · refine .inr (.inr ⟨String.ofList t, String.toList_inj.mp ?_, String.toList_inj.mp ?_⟩) <;> rw [cut_toList] <;> simpa
  · rintro (⟨rfl, rfl⟩ | ⟨t, rfl, rfl⟩ | ⟨t, rfl, rfl⟩)
    · rfl
    · simp only [String.append_assoc]
    · simp only [String.append_assoc]

/-! ### Columns -/

/-- C79 (a): fields of one view have one column only if they have one id. -/
theorem C79_view (f g : NField) (hv : f.view = g.view) : f.column = g.column ↔ f.id = g.id := by
  unfold NField.column NField.id
  rw [hv]
  constructor <;> intro h
  · have := congrArg String.toList h
    simp only [String.toList_append, List.append_assoc, List.append_cancel_left_eq] at this
    rw [String.toList_inj.mp this]
  · have := congrArg String.toList h
    simp only [String.toList_append, List.append_assoc, List.append_cancel_left_eq] at this
    rw [String.toList_inj.mp this]

/-- C79 (b): fields of two views have one column exactly if the rest of the one view's name begins the other field's name. -/
theorem C79_exact (f g : NField) (hv : f.view ≠ g.view) : f.column = g.column ↔
    (∃ t, g.view = f.view ++ "_" ++ t ∧ f.alias = t ++ "_" ++ g.alias) ∨ ∃ t, f.view = g.view ++ "_" ++ t ∧ g.alias = t ++ "_" ++ f.alias := by
  unfold NField.column
  rw [cut_iff]
  constructor
  · rintro (⟨e, _⟩ | h | h)
    · exact absurd e hv
    · exact .inl h
    · exact .inr h
  · rintro (h | h)
    · exact .inr (.inl h)
    · exact .inr (.inr h)

/-- C79 (c): the fields of a query have columns of their own. Missing for the full statement: views one of whose names is the other's followed by
an underscore and more (`C79_shared`). -/
theorem C79_columns_partial (fs : List NField) (hid : (fs.map NField.id).Nodup)
    (hv : ∀ f ∈ fs, ∀ g ∈ fs, f.view = g.view ∨ NamesApart f.view g.view) : (fs.map NField.column).Nodup := by
  have hn : fs.Nodup := hid.of_map _
  refine (List.nodup_map_iff_inj_on hn).mpr fun f hf g hg e => ?_
  have hinj := (List.nodup_map_iff_inj_on hn).mp hid f hf g hg
  by_cases h : f.view = g.view
  · exact hinj ((C79_view f g h).mp e)
  · rcases hv f hf g hg with h' | ⟨h1, h2⟩
    · exact absurd h' h
    · rcases (C79_exact f g h).mp e with ⟨t, e1, _⟩ | ⟨t, e1, _⟩
      · exact absurd e1 (h1 t)
      · exact absurd e1 (h2 t)

/-- C79 (d): the condition of C55 on the labels of a query's columns, for fields of a query as C55 has them. -/
theorem C79_labels (fs : List AnsField) (hid : (fs.map (fun f => (f.view, f.name))).Nodup)
    (hv : ∀ f ∈ fs, ∀ g ∈ fs, f.view = g.view ∨ NamesApart f.view g.view) : (fs.map AnsField.label).Nodup := by
  have hn : fs.Nodup := hid.of_map _
  refine (List.nodup_map_iff_inj_on hn).mpr fun f hf g hg e => ?_
  have hinj := (List.nodup_map_iff_inj_on hn).mp hid f hf g hg
  unfold AnsField.label at e
  rcases (cut_iff _ _ _ _).mp e with ⟨e1, e2⟩ | ⟨t, e1, _⟩ | ⟨t, e1, _⟩
  · exact hinj (by rw [e1, e2])
  · rcases hv f hf g hg with h | ⟨h, _⟩
    · have := congrArg String.length (h.trans e1)
      have hl : "_".length = 1 := rfl
      simp only [String.length_append] at this
      omega
    · exact absurd e1 (h t)
  · rcases hv f hf g hg with h | ⟨_, h⟩
    · have := congrArg String.length (h.symm.trans e1)
      have hl : "_".length = 1 := rfl
      simp only [String.length_append] at this
      omega
    · exact absurd e1 (h t)

/-- (an example; it models no file in /repo) -/
def colTable : List (String × AnsField) :=
  [("orders.items_id", ⟨"orders", "items_id", false, .dimension "orders.items_id"⟩),
   ("orders_items.id", ⟨"orders_items", "id", false, .dimension "orders_items.id"⟩)]

/-- (an example; it models no file in /repo) -/
def colQuestion : Question where
  metrics := []
  dimensions := ["orders.items_id", "orders_items.id"]
  wheres := []
  havings := []
  whereNames := []
  havingNames := []
  orderNames := []
  groupFilters := []
  order := .json []
  limit := none
  force := false
  fieldOf := fun _ => ""

/-- C79 (e): without that condition it is false: a query for two different dimensions is written with two columns of one name. -/
theorem C79_shared : ∃ (P : AnsProject) (q : Question) (s : Stmt) (f g : AnsField), buildStmt P .snowflake q = .ok s ∧
    q.dimensions = [f.view ++ "." ++ f.name, g.view ++ "." ++ g.name] ∧ f.view ++ "." ++ f.name ≠ g.view ++ "." ++ g.name ∧
    P.get (f.view ++ "." ++ f.name) = .ok f ∧ P.get (g.view ++ "." ++ g.name) = .ok g ∧ f.sql ≠ g.sql ∧
    s.block.select.map (·.2) = ["orders_items_id", "orders_items_id"] := by
  have h : (match buildStmt ⟨ansGet colTable, fun _ => .key "orders.id", fun _ => []⟩ .snowflake colQuestion with
      | .ok s => decide (s.block.select.map (·.2) = ["orders_items_id", "orders_items_id"]) | .error _ => false) = true := by decide +kernel
  cases hs : buildStmt ⟨ansGet colTable, fun _ => .key "orders.id", fun _ => []⟩ .snowflake colQuestion with
  | error e => rw [hs] at h; cases h
  | ok s =>
    rw [hs] at h
    exact ⟨_, _, s, ⟨"orders", "items_id", false, .dimension "orders.items_id"⟩, ⟨"orders_items", "id", false, .dimension "orders_items.id"⟩, hs,
      by decide +kernel, by decide +kernel, by decide +kernel, by decide +kernel, by decide +kernel, of_decide_eq_true h⟩

/-! ### Groups -/

/-- C79 (f): two time groups of a view have one alias exactly if they have the same name and timeframe, or one timeframe ends with the other and the names
make up for the difference. -/
theorem C79_groups (f g : NField) (t u : String) (hf : f.kind = .time t) (hg : g.kind = .time u) : f.alias = g.alias ↔
    f.name = g.name ∧ t = u ∨ (∃ p, t = p ++ "_" ++ u ∧ g.name = f.name ++ "_" ++ p) ∨ ∃ p, u = p ++ "_" ++ t ∧ f.name = g.name ++ "_" ++ p := by
  unfold NField.alias
  rw [hf, hg]
  simp only
  rw [cut_iff]
  constructor
  · rintro (h | ⟨p, a, b⟩ | ⟨p, a, b⟩)
    · exact .inl h
    · exact .inr (.inl ⟨p, b, a⟩)
    · exact .inr (.inr ⟨p, b, a⟩)
  · rintro (h | ⟨p, a, b⟩ | ⟨p, a, b⟩)
    · exact .inl h
    · exact .inr (.inl ⟨p, b, a⟩)
    · exact .inr (.inr ⟨p, b, a⟩)

/-- The texts before an underscore in the text. (for the proofs; it models no file in /repo) -/
def cutsBefore : List Char → List (List Char × List Char)
  | [] => []
  | c :: cs => (if c = '_' then [([], cs)] else []) ++ (cutsBefore cs).map (fun p => (c :: p.1, p.2))

theorem cutsBefore_mem (p u : List Char) : (p, u) ∈ cutsBefore (p ++ '_' :: u) := by
  induction p with
  | nil => simp [cutsBefore]
  | cons c p ih => simp only [List.cons_append, cutsBefore, List.mem_append, List.mem_map]; exact .inr ⟨_, ih, rfl⟩

/-- C79 (g): so, with the timeframes there are, time groups with different names share an alias only if one is named like the other one followed
by one of six endings. -/
theorem C79_timeframes (f g : NField) (t u : String) (hf : f.kind = .time t) (hg : g.kind = .time u) (ht : t ∈ validTimeframes)
    (hu : u ∈ validTimeframes) (h : f.alias = g.alias) : f.name = g.name ∧ t = u ∨
    ∃ p ∈ ["fiscal", "day_of", "week_of", "month_of", "quarter_of", "fiscal_quarter_of"], g.name = f.name ++ "_" ++ p ∨ f.name = g.name ++ "_" ++ p := by
  have key : ∀ a ∈ validTimeframes, ∀ p ∈ cutsBefore a.toList, (∃ b ∈ validTimeframes, b.toList = p.2) →
      p.1 ∈ ["fiscal", "day_of", "week_of", "month_of", "quarter_of", "fiscal_quarter_of"].map String.toList := by decide +kernel
  have use : ∀ p a b, a ∈ validTimeframes → b ∈ validTimeframes → a = p ++ "_" ++ b →
      p ∈ ["fiscal", "day_of", "week_of", "month_of", "quarter_of", "fiscal_quarter_of"] := by
    intro p a b ha hb e
    obtain ⟨q, hq, e'⟩ := List.mem_map.mp (key a ha (p.toList, b.toList) (by rw [e, cut_toList]; exact cutsBefore_mem _ _) ⟨b, hb, rfl⟩)
    rwa [← String.toList_inj.mp e']
  rcases (C79_groups f g t u hf hg).mp h with h | ⟨p, a, b⟩ | ⟨p, a, b⟩
  · exact .inl h
  · exact .inr ⟨p, use p t u ht hu a, .inl b⟩
  · exact .inr ⟨p, use p u t hu ht a, .inr b⟩

/-- C79 (h): two groups of durations with one alias have the same name and interval. -/
theorem C79_durations (f g : NField) (t u : String) (hf : f.kind = .duration t) (hg : g.kind = .duration u) (ht : t ∈ durationGroups)
    (hu : u ∈ durationGroups) (h : f.alias = g.alias) : f.name = g.name ∧ t = u := by
  have key : ∀ a ∈ durationGroups, '_' ∉ a.toList := by decide +kernel
  unfold NField.alias at h
  rw [hf, hg] at h
  simp only at h
  rcases (cut_iff _ _ _ _).mp h with ⟨a, b⟩ | ⟨p, a, _⟩ | ⟨p, a, _⟩
  · exact ⟨b, a⟩
  · exact absurd (by rw [a, cut_toList]; simp) (key u hu)
  · exact absurd (by rw [a, cut_toList]; simp) (key t ht)

/-- C79 (h): the intervals of C79_durations are those that have SQL: one is among them exactly when its duration has a value, whatever the warehouse. -/
theorem C79_intervals (g : String) (diff : DiffUnit → DateTime → DateTime → ℤ) (w : Warehouse) (s e : DateTime) :
    g ∈ durationGroups ↔ ∃ n, durationValue diff w g s e = .ok n := by
  constructor
  · exact (C52_units diff w g s e).1
  · rintro ⟨n, h⟩
    by_contra hc
    rw [(C52_units diff w g s e).2 hc] at h
    cases h

/-- C79 (i): the timeframe `fiscal_month` of `order` and the timeframe `month` of `order_fiscal` are one id and one column. -/
theorem C79_fiscal : ∃ f g : NField, f.view = g.view ∧ f.name ≠ g.name ∧ f.kind = .time "fiscal_month" ∧ g.kind = .time "month" ∧ f.column = g.column ∧
    "fiscal_month" ∈ validTimeframes ∧ "month" ∈ validTimeframes :=
  ⟨⟨"orders", "order", .time "fiscal_month", none, none⟩, ⟨"orders", "order_fiscal", .time "month", none, none⟩, rfl, by decide, rfl, rfl, by decide +kernel,
    by decide +kernel, by decide +kernel⟩

/-! ### Labels -/

/-- Back from a label: small letters, underscores for blanks. (for the proofs; it models no file in /repo) -/
def unlabel (c : Char) : Char := if c = ' ' then '_' else c.toLower

theorem unlabel_small {c : Char} (h : ('a'.toNat ≤ c.toNat ∧ c.toNat ≤ 'z'.toNat) ∨ ('0'.toNat ≤ c.toNat ∧ c.toNat ≤ '9'.toNat) ∨ c = '_') :
    unlabel (if c = '_' then ' ' else c) = c ∧ unlabel (if c = '_' then ' ' else c).toUpper = c ∧ (c.isAlpha = true → c.toLower = c) := by
  have key : ∀ n : Fin 128, (('a'.toNat ≤ n.val ∧ n.val ≤ 'z'.toNat) ∨ ('0'.toNat ≤ n.val ∧ n.val ≤ '9'.toNat) ∨ Char.ofNat n.val = '_') →
      unlabel (if Char.ofNat n.val = '_' then ' ' else Char.ofNat n.val) = Char.ofNat n.val ∧
      unlabel (if Char.ofNat n.val = '_' then ' ' else Char.ofNat n.val).toUpper = Char.ofNat n.val ∧
      ((Char.ofNat n.val).isAlpha = true → (Char.ofNat n.val).toLower = Char.ofNat n.val) := by decide +kernel
  have hlt : c.toNat < 128 := by
    rcases h with h | h | rfl
    · have : 'z'.toNat = 122 := rfl
      omega
    · have : '9'.toNat = 57 := rfl
      omega
    · decide
  have := key ⟨c.toNat, hlt⟩
  simp only [Char.ofNat_toNat] at this
  exact this h

theorem unlabel_title (cs : List Char) (up : Bool) (h : ∀ c ∈ cs, ('a'.toNat ≤ c.toNat ∧ c.toNat ≤ 'z'.toNat) ∨ ('0'.toNat ≤ c.toNat ∧ c.toNat ≤ '9'.toNat) ∨ c = '_') :
    (titleGo up (cs.map (fun c => if c = '_' then ' ' else c))).map unlabel = cs := by
  induction cs generalizing up with
  | nil => rfl
  | cons c cs ih =>
    obtain ⟨k1, k2, k3⟩ := unlabel_small (h c (by simp))
    have ih := fun up => ih up (fun x hx => h x (by simp [hx]))
    simp only [List.map_cons, titleGo]
    by_cases ha : (if c = '_' then ' ' else c).isAlpha = true
    · rw [if_pos ha]
      have hne : c ≠ '_' := by rintro rfl; exact absurd ha (by decide)
      rw [if_neg hne] at ha k1 k2 ⊢
      cases up with
      | true => rw [if_pos rfl, List.map_cons, k2, ih]
      | false => rw [if_neg (by decide), List.map_cons, k3 ha, k1, ih]
    · rw [if_neg ha, List.map_cons, k1, ih]

theorem unlabel_spacedTitle (s : String) (h : SmallName s) : (spacedTitle s).toList.map unlabel = s.toList := by
  unfold spacedTitle defaultPrefix
  rw [String.toList_ofList]
  exact unlabel_title _ _ h

theorem unlabel_spacedUpper (s : String) (h : SmallName s) : (spacedUpper s).toList.map unlabel = s.toList := by
  unfold spacedUpper
  rw [String.toList_ofList, List.map_map, List.map_map]
  have : s.toList.map ((unlabel ∘ Char.toUpper) ∘ fun c => if c = '_' then ' ' else c) = s.toList.map id :=
    List.map_congr_left fun c hc => (unlabel_small (h c hc)).2.1
  rw [this, List.map_id]

theorem spacedTitle_inj (s t : String) (hs : SmallName s) (ht : SmallName t) (e : spacedTitle s = spacedTitle t) : s = t := by
  apply String.toList_inj.mp
  rw [← unlabel_spacedTitle s hs, ← unlabel_spacedTitle t ht, e]

/-- C79 (j): fields without a label of their own, of views without a prefix, have one label only if they have one alias. -/
theorem C79_label (f g : NField) (hf : f.given = none) (hg : g.given = none) (hp : f.before = g.before) (sf : SmallName f.alias) (sg : SmallName g.alias) :
    f.label = g.label ↔ f.alias = g.alias := by
  have hb : f.bareLabel = g.bareLabel ↔ f.alias = g.alias := by
    have e : ∀ x : NField, x.given = none → SmallName x.alias → x.bareLabel.toList.map unlabel = x.alias.toList := by
      intro x hx sx
      unfold NField.bareLabel
      rw [hx]
      simp only
      split
      · exact unlabel_spacedUpper _ sx
      · exact unlabel_spacedTitle _ sx
    constructor
    · intro h
      apply String.toList_inj.mp
      rw [← e f hf sf, ← e g hg sg, h]
    · intro h
      unfold NField.bareLabel
      rw [hf, hg, h]
  rw [← hb]
  unfold NField.label
  rw [hp]
  cases g.before with
  | none => exact Iff.rfl
  | some p =>
    simp only
    split
    · exact Iff.rfl
    · constructor
      · intro h
        have := congrArg String.toList h
        simp only [String.toList_append, List.append_assoc, List.append_cancel_left_eq] at this
        exact String.toList_inj.mp this
      · intro h; rw [h]

/-- C79 (k): the timeframes of a group have labels of their own, also if the group has a label written in its definition; so have the intervals of a
duration. -/
theorem C79_group_labels (view name : String) (given before : Option String) (t u : String) (ht : SmallName t) (hu : SmallName u) (hn : SmallName name)
    (net : t ≠ "") (neu : u ≠ "") :
    ((⟨view, name, .time t, given, before⟩ : NField).label = (⟨view, name, .time u, given, before⟩ : NField).label ↔ t = u) ∧
    ((⟨view, name, .duration t, given, before⟩ : NField).label = (⟨view, name, .duration u, given, before⟩ : NField).label ↔ t = u) := by
  have hsmall : ∀ a b : String, SmallName a → SmallName b → SmallName (a ++ "_" ++ b) := by
    intro a b ha hb c hc
    rw [cut_toList] at hc
    rcases List.mem_append.mp hc with h | h
    · exact ha c h
    · rcases List.mem_cons.mp h with rfl | h
      · exact .inr (.inr rfl)
      · exact hb c h
  have cancelL : ∀ a x y : String, a ++ x = a ++ y → x = y := by
    intro a x y h
    have := congrArg String.toList h
    simp only [String.toList_append, List.append_cancel_left_eq] at this
    exact String.toList_inj.mp this
  have cancelR : ∀ a x y : String, x ++ a = y ++ a → x = y := by
    intro a x y h
    have := congrArg String.toList h
    simp only [String.toList_append, List.append_cancel_right_eq] at this
    exact String.toList_inj.mp this
  have bare : ∀ x y : NField, x.before = y.before → x.label = y.label → x.bareLabel = y.bareLabel := by
    intro x y hb h
    unfold NField.label at h
    rw [hb] at h
    cases hy : y.before with
    | none => rw [hy] at h; exact h
    | some p =>
      rw [hy] at h
      simp only at h
      split at h
      · exact h
      · exact cancelL _ _ _ h
  cases given with
  | none =>
    constructor
    · refine (C79_label ⟨view, name, .time t, none, before⟩ ⟨view, name, .time u, none, before⟩ rfl rfl rfl (hsmall _ _ hn ht) (hsmall _ _ hn hu)).trans
        ⟨fun h => ?_, fun h => by rw [h]⟩
      exact cancelL _ _ _ h
    · refine (C79_label ⟨view, name, .duration t, none, before⟩ ⟨view, name, .duration u, none, before⟩ rfl rfl rfl (hsmall _ _ ht hn)
        (hsmall _ _ hu hn)).trans ⟨fun h => ?_, fun h => by rw [h]⟩
      exact cancelR _ _ _ (cancelR _ _ _ h)
  | some l =>
    constructor
    · refine ⟨fun h => ?_, fun h => by rw [h]⟩
      have := bare ⟨view, name, .time t, some l, before⟩ ⟨view, name, .time u, some l, before⟩ rfl h
      unfold NField.bareLabel at this
      simp only [net, neu, if_false] at this
      exact spacedTitle_inj _ _ ht hu (cancelL _ _ _ this)
    · refine ⟨fun h => ?_, fun h => by rw [h]⟩
      have := bare ⟨view, name, .duration t, some l, before⟩ ⟨view, name, .duration u, some l, before⟩ rfl h
      unfold NField.bareLabel at this
      simp only [net, neu, if_false] at this
      exact spacedTitle_inj _ _ ht hu (cancelR _ _ _ (cancelR _ _ _ this))

/-! ### Examples -/

theorem smallName_of (s : String) (h : (s.toList.all (fun c => ('a'.toNat ≤ c.toNat && c.toNat ≤ 'z'.toNat) || ('0'.toNat ≤ c.toNat && c.toNat ≤ '9'.toNat) || c = '_')) = true) :
    SmallName s := by
  intro c hc
  have := List.all_eq_true.mp h c hc
  simp only [Bool.or_eq_true, Bool.and_eq_true, decide_eq_true_eq] at this
  tauto

example : (⟨"orders", "order", .time "day_of_week", none, none⟩ : NField).label = "Order Day Of Week" ∧
    (⟨"orders", "order", .time "day_of_week", some "Purchase", some "Old"⟩ : NField).label = "Old Purchase Day Of Week" ∧
    (⟨"orders", "waiting", .duration "days", some "waiting", none⟩ : NField).label = "Days waiting" ∧
    (⟨"orders", "roi", .plain, none, none⟩ : NField).label = "ROI" := by decide +kernel

example := C79_label ⟨"orders", "order", .time "week", none, none⟩ ⟨"orders", "order_week", .plain, none, none⟩ rfl rfl rfl
  (smallName_of _ (by decide +kernel)) (smallName_of _ (by decide +kernel))

example := C79_group_labels "orders" "order" (some "Purchase") none "week" "day_of_week" (smallName_of _ (by decide +kernel))
  (smallName_of _ (by decide +kernel)) (smallName_of _ (by decide +kernel)) (by decide) (by decide)

example : NamesApart "orders" "order_lines" := by
  constructor <;> intro t e <;> have e := congrArg String.toList e <;> rw [cut_toList] at e <;> simp at e

example : (([⟨"orders", "order", .time "week", none, none⟩, ⟨"orders", "id", .plain, none, none⟩, ⟨"customers", "id", .plain, none, none⟩] : List NField).map
    NField.column).Nodup := by
  refine C79_columns_partial _ (by decide +kernel) ?_
  have h : NamesApart "orders" "customers" := by
    constructor <;> intro t e <;> have e := congrArg String.toList e <;> rw [cut_toList] at e <;> simp at e
  have h' : NamesApart "customers" "orders" := ⟨h.2, h.1⟩
  simp [h, h']

end ML
