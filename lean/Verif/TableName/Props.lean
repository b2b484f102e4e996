import Verif.TableName.Lemmas
import Verif.Dump.Props
/-
C61: the table of a view.
-/
set_option autoImplicit false
namespace ML
open Spec

theorem containsSub_cases (pre : List Char) (cs : List TableCase) (h : cs ≠ []) : containsSub "-- if".toList (pre ++ casesText cs) = true := by
  rw [containsSub_iff]
  cases cs with
  | nil => exact absurd rfl h
  | cons c cs =>
    refine ⟨pre, c.cond ++ "--".toList ++ c.table ++ casesText cs, ?_⟩
    simp [casesText]

theorem resolve_conditional (env : Option String) (manifest : Option (List (String × DbtNode))) (schema : Option String) (l : List Char)
    (h : containsSub "-- if".toList l = true) :
    resolveTableName env manifest schema (String.ofList l) = (resolveConditional l (env.map String.toList)).map String.ofList := by
  have e : (String.ofList l).toList = l := String.toList_ofList
  unfold resolveTableName
  rw [e, if_pos h]

theorem resolve_reference (env : Option String) (manifest : Option (List (String × DbtNode))) (schema : Option String) (l : List Char)
    (h : containsSub "-- if".toList l = false) (h' : containsSub "ref(".toList l = true) :
    resolveTableName env manifest schema (String.ofList l) = resolveDbtRef manifest schema (String.ofList (refArgument l)) := by
  have e : (String.ofList l).toList = l := String.toList_ofList
  unfold resolveTableName
  rw [e, h, if_neg (by simp), if_pos h']

theorem oneLine_text (pre : List Char) (cs : List TableCase) (h : PlainCases pre cs) :
    (pre ++ casesText cs).filter (fun c => c != '\n') = pre.filter (fun c => c != '\n') ++ casesText (oneLine cs) := by
  rw [List.filter_append, filter_cases cs (fun c hc => (h.cond c hc).2)]

theorem find_case (cs ds : List TableCase) (c : TableCase) (h : ((cs ++ c :: ds).map (fun c => strip c.cond)).Nodup) :
    ((cs ++ c :: ds).map TableCase.cond).find? (fun x => decide (some (strip x) = some (strip c.cond))) = some c.cond := by
  rw [List.map_append, List.nodup_append] at h
  rw [List.map_append, List.find?_append]
  have : (cs.map TableCase.cond).find? (fun x => decide (some (strip x) = some (strip c.cond))) = none := by
    rw [List.find?_eq_none]
    intro x hx
    obtain ⟨y, hy, rfl⟩ := List.mem_map.mp hx
    have := h.2.2 (strip y.cond) (List.mem_map.mpr ⟨y, hy, rfl⟩) (strip c.cond) (List.mem_map.mpr ⟨c, List.mem_cons_self, rfl⟩)
    simpa using this
  rw [this]
  simp

theorem others_of (pre : List Char) (cs ds : List TableCase) (c : TableCase) (h : PlainCases pre (cs ++ c :: ds)) :
    ∀ x ∈ oneLine cs, '-' ∉ x.cond ∧ c.cond ≠ x.cond ∧ '-' ∉ x.table ∧ ¬ " if".toList <+: x.table := by
  intro x hx
  obtain ⟨y, hy, rfl⟩ := List.mem_map.mp hx
  have hin : y ∈ cs ++ c :: ds := List.mem_append_left _ hy
  refine ⟨(h.cond y hin).1, ?_, fun hd => (h.table y hin).1 (List.mem_filter.mp hd).1, (h.table y hin).2⟩
  intro e
  have hn := h.once
  rw [List.map_append, List.nodup_append] at hn
  exact hn.2.2 (strip y.cond) (List.mem_map.mpr ⟨y, hy, rfl⟩) (strip c.cond) (List.mem_map.mpr ⟨c, List.mem_cons_self, rfl⟩) (by
    simp only at e; rw [e])

theorem filter_dash (l : List Char) (h : '-' ∉ l) : '-' ∉ l.filter (fun x => x != '\n') := fun hd => h (List.mem_filter.mp hd).1

/-- C61 for the last case: the table of the environment that the last case is for is the table written there, whatever the other
cases are. Missing: the cases before the last one, see `C61_earlier`. -/
theorem C61_last_partial (pre : List Char) (cs : List TableCase) (c : TableCase) (h : PlainCases pre (cs ++ [c])) (env : String)
    (he : env.toList = strip c.cond) (manifest : Option (List (String × DbtNode))) (schema : Option String) :
    resolveTableName (some env) manifest schema (String.ofList (pre ++ casesText (cs ++ [c]))) = .ok (String.ofList (tableOf c)) := by
  rw [resolve_conditional _ _ _ _ (containsSub_cases pre _ (by simp))]
  unfold resolveConditional
  rw [findConds_cases pre _ h]
  simp only [Option.map_some, he]
  rw [find_case cs [] c h.once]
  simp only
  have hin : c ∈ cs ++ [c] := List.mem_append_right _ List.mem_cons_self
  obtain ⟨hc1, hc2⟩ := h.cond c hin
  obtain ⟨ht1, ht2⟩ := h.table c hin
  have hp : ("-- if".toList ++ c.cond ++ "--".toList) = condPhrase c.cond := rfl
  have htext : casesText (oneLine (cs ++ [c])) = casesText (oneLine cs) ++ (condPhrase c.cond ++ c.table.filter (fun x => x != '\n')) := by
    simp [casesText, oneLine, condPhrase]
  have hrest : RestText (condPhrase c.cond ++ c.table.filter (fun x => x != '\n')) := .inr ⟨_, by rw [condPhrase_eq]; rfl⟩
  have hpre : '-' ∉ pre.filter (fun x => x != '\n') := filter_dash pre h.pre
  rw [oneLine_text pre _ h, hp, htext]
  have pass : ∀ f, Search (condPhrase c.cond) f → f (pre.filter (fun x => x != '\n') ++ (casesText (oneLine cs) ++ (condPhrase c.cond ++ c.table.filter (fun x => x != '\n')))) =
      f (condPhrase c.cond ++ c.table.filter (fun x => x != '\n')) := by
    intro f hf
    have hf' := hf
    rw [condPhrase_eq] at hf'
    rw [hf'.plain _ _ hpre, hf.others (oneLine cs) _ hc1 (others_of pre cs [] c h) hrest]
  rw [pass _ (search_between _), between_last _ _ hc1 (filter_dash _ ht1) ht2]
  simp only
  rw [pass _ (search_after _), after_here]
  rfl

/-- C61 is false for every case but the last: the word `if` and the environment stay in front of the table. -/
theorem C61_earlier (pre : List Char) (cs ds : List TableCase) (c d : TableCase) (h : PlainCases pre (cs ++ c :: d :: ds)) (env : String)
    (he : env.toList = strip c.cond) (manifest : Option (List (String × DbtNode))) (schema : Option String) :
    resolveTableName (some env) manifest schema (String.ofList (pre ++ casesText (cs ++ c :: d :: ds))) =
      .ok (String.ofList (strip (" if".toList ++ c.cond ++ c.table.filter (fun x => x != '\n')))) := by
  rw [resolve_conditional _ _ _ _ (containsSub_cases pre _ (by simp))]
  unfold resolveConditional
  rw [findConds_cases pre _ h]
  simp only [Option.map_some, he]
  rw [find_case cs (d :: ds) c h.once]
  simp only
  have hin : c ∈ cs ++ c :: d :: ds := List.mem_append_right _ List.mem_cons_self
  obtain ⟨hc1, hc2⟩ := h.cond c hin
  obtain ⟨ht1, ht2⟩ := h.table c hin
  have hp : ("-- if".toList ++ c.cond ++ "--".toList) = condPhrase c.cond := rfl
  have hd : ∃ r, casesText (oneLine (d :: ds)) = '-' :: '-' :: r := ⟨_, rfl⟩
  obtain ⟨r, hr⟩ := hd
  have htext : casesText (oneLine (cs ++ c :: d :: ds)) = casesText (oneLine cs) ++ (condPhrase c.cond ++ c.table.filter (fun x => x != '\n') ++ '-' :: '-' :: r) := by
    have : oneLine (cs ++ c :: d :: ds) = oneLine cs ++ ⟨c.cond, c.table.filter (fun x => x != '\n')⟩ :: oneLine (d :: ds) := by simp [oneLine]
    rw [this, ← hr]
    simp [casesText, condPhrase]
  have hrest : RestText (condPhrase c.cond ++ c.table.filter (fun x => x != '\n') ++ '-' :: '-' :: r) := .inr ⟨_, by rw [condPhrase_eq]; rfl⟩
  have hpre : '-' ∉ pre.filter (fun x => x != '\n') := filter_dash pre h.pre
  rw [oneLine_text pre _ h, hp, htext]
  have hs := search_between (condPhrase c.cond)
  have h1 := hs
  rw [condPhrase_eq] at h1
  have h2 := h1.plain (pre.filter (fun x => x != '\n')) (casesText (oneLine cs) ++ (condPhrase c.cond ++ c.table.filter (fun x => x != '\n') ++ '-' :: '-' :: r)) hpre
  rw [← condPhrase_eq] at h2
  have pass : searchBetween (condPhrase c.cond) (pre.filter (fun x => x != '\n') ++ (casesText (oneLine cs) ++ (condPhrase c.cond ++ c.table.filter (fun x => x != '\n') ++ '-' :: '-' :: r))) =
      some (c.table.filter (fun x => x != '\n')) := by
    rw [h2, hs.others (oneLine cs) _ hc1 (others_of pre cs (d :: ds) c h) hrest, between_here _ _ _ (filter_dash _ ht1)]
  rw [pass]
  simp only
  rw [dropDashes_match _ _ hc1 (filter_dash _ ht1)]
  rfl

theorem dropWhile_append_length (p : Char → Bool) (x y : List Char) (hy : ∃ c ∈ y, p c = false) : (x.dropWhile p).length < ((x ++ y).dropWhile p).length := by
  obtain ⟨c, hc, hp⟩ := hy
  rw [List.dropWhile_append]
  split
  · rename_i h
    rw [List.isEmpty_iff] at h
    rw [h, List.length_nil]
    apply List.length_pos_of_ne_nil
    intro e
    rw [List.dropWhile_eq_nil_iff] at e
    rw [e c hc] at hp
    cases hp
  · rw [List.length_append]
    have := List.length_pos_of_mem hc
    omega

/-- C61 is false for every case but the last: what is read is not the table written there. -/
theorem C61_earlier_wrong (pre : List Char) (cs ds : List TableCase) (c d : TableCase) (h : PlainCases pre (cs ++ c :: d :: ds)) (env : String)
    (he : env.toList = strip c.cond) (manifest : Option (List (String × DbtNode))) (schema : Option String) :
    resolveTableName (some env) manifest schema (String.ofList (pre ++ casesText (cs ++ c :: d :: ds))) ≠ .ok (String.ofList (tableOf c)) := by
  rw [C61_earlier pre cs ds c d h env he manifest schema]
  intro e
  injection e with e
  have e := String.ofList_injective e
  have hl := congrArg List.length e
  unfold tableOf strip at hl
  have h1 : (" if".toList ++ c.cond ++ c.table.filter (fun x => x != '\n')).dropWhile isSpace = 'i' :: 'f' :: (c.cond ++ c.table.filter (fun x => x != '\n')) := by
    rw [show " if".toList = [' ', 'i', 'f'] from rfl]
    simp [isSpace]
  rw [h1, List.length_reverse, List.length_reverse] at hl
  have h2 : ('i' :: 'f' :: (c.cond ++ c.table.filter (fun x => x != '\n'))).reverse = (c.table.filter (fun x => x != '\n')).reverse ++ (c.cond.reverse ++ ['f', 'i']) := by simp
  rw [h2] at hl
  have h3 := dropWhile_append_length isSpace (c.table.filter (fun x => x != '\n')).reverse (c.cond.reverse ++ ['f', 'i']) ⟨'i', by simp, by decide⟩
  have h4 : (((c.table.filter (fun x => x != '\n')).dropWhile isSpace).reverse.dropWhile isSpace).length ≤ ((c.table.filter (fun x => x != '\n')).reverse.dropWhile isSpace).length := by
    obtain ⟨a, ha⟩ := List.dropWhile_suffix isSpace (l := c.table.filter (fun x => x != '\n'))
    conv_rhs => rw [← ha, List.reverse_append]
    rw [List.dropWhile_append]
    split
    · rename_i hh
      rw [List.isEmpty_iff] at hh
      rw [hh]
      exact Nat.zero_le _
    · rw [List.length_append]
      omega
  omega

/-- C61: an environment that no case is for is rejected, and so is none at all. -/
theorem C61_unknown (pre : List Char) (cs : List TableCase) (hne : cs ≠ []) (h : PlainCases pre cs) (env : Option String)
    (he : ∀ e, env = some e → ∀ c ∈ cs, e.toList ≠ strip c.cond) (manifest : Option (List (String × DbtNode))) (schema : Option String) :
    resolveTableName env manifest schema (String.ofList (pre ++ casesText cs)) = .error .query := by
  rw [resolve_conditional _ _ _ _ (containsSub_cases pre cs hne)]
  unfold resolveConditional
  rw [findConds_cases pre _ h]
  have : (cs.map TableCase.cond).find? (fun c => decide (some (strip c) = env.map String.toList)) = none := by
    rw [List.find?_eq_none]
    intro x hx
    obtain ⟨c, hc, rfl⟩ := List.mem_map.mp hx
    cases env with
    | none => simp
    | some e => simpa using fun e' => he e rfl c hc e'.symm
  rw [this]
  rfl

/-- C61: a plain table name is the table, in every environment. -/
theorem C61_plain (env : Option String) (manifest : Option (List (String × DbtNode))) (schema : Option String) (s : String)
    (h1 : ¬ "-- if".toList <:+: s.toList) (h2 : ¬ "ref(".toList <:+: s.toList) : resolveTableName env manifest schema s = .ok s := by
  unfold resolveTableName
  rw [← containsSub_iff] at h1 h2
  rw [if_neg h1, if_neg h2]

/-- C61: a dbt reference is, in every environment, the table of that name in the manifest or, without a manifest, in the schema of
the connection; without either it is rejected. -/
theorem C61_ref (env : Option String) (manifest : Option (List (String × DbtNode))) (schema : Option String) (pre name post : List Char)
    (h0 : ¬ "-- if".toList <:+: pre ++ "ref('".toList ++ name ++ "')".toList ++ post)
    (h1 : ')' ∉ pre) (h2 : ')' ∉ name) (h3 : '\'' ∉ name)
    (h4 : ∀ k, k < pre.length → isPrefix "ref(".toList ((pre ++ "ref(".toList ++ ('\'' :: name ++ ['\'', ')'] ++ post)).drop k) = false) :
    resolveTableName env manifest schema (String.ofList (pre ++ "ref('".toList ++ name ++ "')".toList ++ post)) =
      match manifest, schema with
      | some nodes, schema => resolveDbtRef (some nodes) schema (String.ofList name)
      | none, none => .error .query
      | none, some s => if s = "" then .error .query else .ok (s ++ "." ++ String.ofList name) := by
  rw [← containsSub_iff, Bool.not_eq_true] at h0
  rw [resolve_reference _ _ _ _ h0, C50_ref_text pre name post h1 h2 h3 h4]
  · cases manifest <;> cases schema <;> rfl
  · rw [containsSub_iff]
    refine ⟨pre, '\'' :: (name ++ "')".toList ++ post), ?_⟩
    simp [show "ref('".toList = ['r', 'e', 'f', '(', '\''] from rfl, show "ref(".toList = ['r', 'e', 'f', '('] from rfl]

/-! ### Cases that meet the hypotheses, and findings -/

def tableDev : TableCase := ⟨" dev ".toList, " dev_db.discounts\n  ".toList⟩
def tableProd : TableCase := ⟨" prod ".toList, " analytics_live.discounts".toList⟩

theorem tableTwo : PlainCases [] [tableDev, tableProd] := by
  refine ⟨by decide, by decide +kernel, ?_, by decide +kernel⟩
  intro c hc
  rw [← List.isPrefixOf_iff_prefix]
  simp only [List.mem_cons, List.not_mem_nil, or_false] at hc
  rcases hc with rfl | rfl <;> decide +kernel

example : String.ofList ([] ++ casesText [tableDev, tableProd]) = "-- if dev -- dev_db.discounts\n  -- if prod -- analytics_live.discounts" := by decide +kernel

example : resolveTableName (some "prod") none none "-- if dev -- dev_db.discounts\n  -- if prod -- analytics_live.discounts" = .ok "analytics_live.discounts" := by
  have := C61_last_partial [] [tableDev] tableProd tableTwo "prod" (by decide +kernel) none none
  rwa [show String.ofList ([] ++ casesText ([tableDev] ++ [tableProd])) = "-- if dev -- dev_db.discounts\n  -- if prod -- analytics_live.discounts" by decide +kernel,
    show String.ofList (tableOf tableProd) = "analytics_live.discounts" by decide +kernel] at this

example : resolveTableName (some "dev") none none "-- if dev -- dev_db.discounts\n  -- if prod -- analytics_live.discounts" = .ok "if dev  dev_db.discounts" := by
  decide +kernel

example : resolveTableName (some "test") none none "-- if dev -- dev_db.discounts\n  -- if prod -- analytics_live.discounts" = .error .query ∧
    resolveTableName none none none "-- if dev -- dev_db.discounts\n  -- if prod -- analytics_live.discounts" = .error .query := by
  decide +kernel

/-- C61 is false for a table with a dash, as BigQuery's projects have: the other cases stay behind it. -/
theorem C61_dash : resolveTableName (some "dev") none none "-- if dev -- my-project.discounts -- if prod -- live.discounts" =
    .ok "my-project.discounts -- if prod -- live.discounts" := by decide +kernel

/-- C61 is false for an environment with a dash: it is never found. -/
theorem C61_dash_env : resolveTableName (some "pre-prod") none none "-- if pre-prod -- a.b -- if prod -- c.d" = .error .query := by decide +kernel

/-- C61: a reference that is not closed loses its last character. -/
theorem C61_unclosed : resolveTableName none none (some "shop") "ref('orders'" = .ok "shop.orders" ∧
    resolveTableName none none (some "shop") "ref(orders" = .ok "shop.order" := by decide +kernel

example : resolveTableName (some "dev") (some [("model.shop.orders", ⟨"prod", "orders_v2"⟩)]) none "{{ ref('orders') }}" = .ok "prod.orders_v2" ∧
    resolveTableName none none (some "shop") "{{ ref('orders') }}" = .ok "shop.orders" ∧
    resolveTableName none none none "{{ ref('orders') }}" = .error .query ∧ resolveTableName none none (some "") "ref('orders')" = .error .query ∧
    resolveTableName none none none "analytics.orders" = .ok "analytics.orders" := by decide +kernel

end ML
