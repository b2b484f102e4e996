import Verif.Window.PropsMore
import Verif.Answer.PropsEx
/-
C57: a concrete project that meets the hypotheses, and the cases that go wrong.
-/
set_option autoImplicit false
namespace ML
open Spec

/-! ### A concrete project -/

def accountF : AnsField := ⟨"accounts", "account", false, .dimension "accounts.account"⟩
def bankF : AnsField := ⟨"accounts", "region", false, .dimension "accounts.region"⟩
def dayF : AnsField := ⟨"accounts", "day", false, .dimension "accounts.day"⟩
def cityF : AnsField := ⟨"customers", "city", false, .dimension "customers.city"⟩
def pastF : AnsField := ⟨"calendar", "day", false, .dimension "calendar.day"⟩

/-- Accounts with a region and a day; customers with a city; a calendar with a day. -/
def winTable : List (String × AnsField) :=
  [("region", bankF), ("accounts.account", accountF), ("accounts.day", dayF), ("city", cityF), ("calendar.day", pastF)]

/-- The balance of the latest day of each window: `window` says of which. -/
def balanceM (type : MeasureType) (window : WinDef) : WinMeasure where
  view := "accounts"
  name := "balance"
  measure := { type := type, sql := "accounts.balance", pk := none }
  filters := []
  win := window

/-- The window of each account and of the query's dimensions. -/
def perAccount : WinDef := ⟨"accounts.day", .max, true, ["accounts.account"], false⟩

/-- The project with one non-additive metric. -/
def winW (m : WinMeasure) : WinProject where
  base := ⟨ansGet winTable, fun _ => .none, fun _ => []⟩
  win := fun n => if n = "balance" then some m else none
  variation := fun _ _ => false
  num := fun _ => none
  now := ⟨⟨2024, 1, 1⟩, 0⟩
  render := fun c => "case when " ++ c.sql

/-- The balance by region. -/
def winQ (dims : List String) : Question where
  metrics := ["balance"]
  dimensions := dims
  wheres := []
  havings := []
  whereNames := []
  havingNames := []
  orderNames := []
  groupFilters := []
  order := .absent
  limit := none
  force := false
  fieldOf := fun _ => "region"

/-- Rows are account, region, day, balance. Joining the customers loses account 2. -/
def winDb : Db (Nat × Nat × Nat × Int) where
  rows := fun vs => if "customers" ∈ vs then [(1, 1, 1, 10), (1, 1, 2, 12)] else
    [(1, 1, 1, 10), (1, 1, 2, 12), (2, 1, 1, 5), (2, 1, 3, -7), (3, 2, 2, 8)]
  tables := fun vs => vs
  engine := ⟨fun r s => if s = "accounts.account" then some (r.1 : ℚ) else if s = "accounts.region" then some (r.2.1 : ℚ)
    else if s = "accounts.day" then some (r.2.2.1 : ℚ) else if s = "accounts.balance" then some (r.2.2.2 : ℚ) else none, fun _ => 0⟩
  test := fun _ _ => .u

/-- The warehouse's reading of expressions over the joined rows. -/
def winE (W : WinProject) (c : CaseSql) : Engine (WRow (Nat × Nat × Nat × Int)) :=
  ⟨fun x s => if s = W.render c then c.eval (winTruth W winDb.engine (fun _ _ _ => none)) (fun y t => winDb.engine.value y.1 t) x
    else winDb.engine.value x.1 s, winDb.engine.hash⟩

theorem winE_reads (m : WinMeasure) (c : CaseSql) (hc : m.case (winW m).num (winW m).now = .ok c) :
    ReadsCases (winW m) winDb.engine (fun _ _ _ => none) (winE (winW m) c) := by
  have hw : ∀ n m', (winW m).win n = some m' → m' = m := by
    intro n m' h
    have h : (if n = "balance" then some m else none) = some m' := h
    split_ifs at h
    cases h
    rfl
  refine ⟨fun n m' c' h h' x => ?_, fun s hs x => ?_, rfl⟩
  · rw [hw n m' h] at h'
    rw [hc] at h'
    cases h'
    exact if_pos rfl
  · refine if_neg ?_
    exact hs "balance" m c rfl hc

theorem winW_known {m : WinMeasure} {c : CaseSql} (hc : m.case (winW m).num (winW m).now = .ok c) {n : String} {f : AnsField}
    (h : (winW m).get n = .ok f) :
    f ∈ (⟨m.view, m.name, false, .measure { m.measure with sql := (winW m).render c }⟩ : AnsField) :: winTable.map Prod.snd := by
  unfold WinProject.get at h
  by_cases hn : n = "balance"
  · have : (winW m).win n = some m := if_pos hn
    rw [this] at h
    simp only [hc] at h
    cases h
    exact List.mem_cons_self
  · have : (winW m).win n = none := if_neg hn
    rw [this] at h
    simp only at h
    refine List.mem_cons_of_mem _ ?_
    have h : ansGet winTable n = .ok f := h
    unfold ansGet at h
    cases hd : dictGet winTable n with
    | none => rw [hd] at h; cases h
    | some g =>
      rw [hd] at h
      cases h
      exact List.mem_map.mpr ⟨(n, f), dictGet_mem hd, rfl⟩

/-- The CASE expression of the metric. -/
def balanceC (zero : Bool) : CaseSql :=
  ⟨[("accounts.day", ⟨.equalTo, .literal "cte_balance_day.accounts_max_day".toList⟩),
    ("accounts.account", ⟨.equalTo, .literal "cte_balance_day.accounts_account".toList⟩)], "accounts.balance", zero⟩

theorem balance_case : (balanceM .sum perAccount).case (winW (balanceM .sum perAccount)).num (winW (balanceM .sum perAccount)).now =
    .ok (balanceC true) := by decide +kernel

/-- Everything the answer needs of the built statement, to be computed. -/
def readyStmt : Res WinStmt → Bool
  | .ok s => decide (∀ j ∈ s.joins, ∀ p ∈ j.on, (columnOf j.cte.select p.2).isSome = true) &&
      decide (∀ r ∈ s.refs, (s.joins.flatMap WinJoin.columns).count (lower r) = 1)
  | .error _ => false

theorem readyStmt_ok {x : Res WinStmt} (h : readyStmt x = true) : ∃ s, x = .ok s ∧ (∀ j ∈ s.joins, ∀ p ∈ j.on, columnOf j.cte.select p.2 ≠ none) ∧
    ∀ r ∈ s.refs, (s.joins.flatMap WinJoin.columns).count (lower r) = 1 := by
  cases x with
  | error e => cases h
  | ok s =>
    simp only [readyStmt, Bool.and_eq_true, decide_eq_true_eq] at h
    refine ⟨s, rfl, fun j hj p hp hn => ?_, h.2⟩
    have := h.1 j hj p hp
    rw [hn] at this
    cases this

abbrev balW : WinProject := winW (balanceM .sum perAccount)
def balanceF : AnsField := ⟨"accounts", "balance", false, .measure { type := .sum, sql := "case when accounts.balance", pk := none }⟩

theorem balW_proper : Proper balW.project (winQ ["region"]) [bankF] [balanceF] :=
  ⟨.cons (by decide +kernel) .nil, .cons (by decide +kernel) .nil, by simp [bankF], by simp [balanceF], trivial, trivial⟩

theorem balW_windows : ProperWindows balW (winQ ["region"]) := by
  have hw : ∀ n m', balW.win n = some m' → m' = balanceM .sum perAccount := by
    intro n m' h
    have h : (if n = "balance" then some (balanceM .sum perAccount) else none) = some m' := h
    split_ifs at h
    cases h
    rfl
  have hsplit : ∀ g, SplitsWindow balW (winQ ["region"]) perAccount g → g = "accounts.account" ∨ g = "region" := by
    rintro g (h | ⟨h, -⟩)
    · exact .inl (List.mem_singleton.mp h)
    · exact .inr (List.mem_singleton.mp h)
  refine ⟨fun n _ m hm f hf => ?_, fun n _ m hm g hg f hf => ?_, fun n _ n' _ m m' hm hm' _ => ?_, fun d hd => ?_, fun n _ m hm => ?_,
    fun n _ m hm f hf => ?_⟩
  · rw [hw n m hm] at hf ⊢
    have : balW.get (balanceM .sum perAccount).win.name = .ok dayF := by decide +kernel
    rw [this] at hf
    cases hf
    rfl
  · rw [hw n m hm] at hg
    rw [List.mem_singleton.mp hg] at hf ⊢
    have : balW.get "accounts.account" = .ok accountF := by decide +kernel
    rw [this] at hf
    cases hf
    decide +kernel
  · rw [hw n m hm, hw n' m' hm']
  · rw [List.mem_singleton.mp hd]
    decide +kernel
  · rw [hw n m hm]
    refine ⟨fun i => by show "region" ≠ _; decide +kernel, fun g hg => ?_⟩
    rcases hsplit g hg with rfl | rfl <;> exact ⟨by decide +kernel, by decide +kernel⟩
  · rw [hw n m hm] at hf
    cases hf

theorem balW_labels : LabelsDiffer balW.project := by
  intro n m f g hf hg hl
  have h1 := winW_known balance_case hf
  have h2 := winW_known balance_case hg
  revert hl
  have : ∀ f ∈ balanceF :: winTable.map Prod.snd, ∀ g ∈ balanceF :: winTable.map Prod.snd, f.label = g.label → f = g := by decide +kernel
  exact this f h1 g h2

theorem balW_answered (s : WinStmt) (hs : buildWinStmt balW .snowflake (winQ ["region"]) = .ok s)
    (h1 : ∀ j ∈ s.joins, ∀ p ∈ j.on, columnOf j.cte.select p.2 ≠ none)
    (h2 : ∀ r ∈ s.refs, (s.joins.flatMap WinJoin.columns).count (lower r) = 1) : ∃ out, s.Answers balW winDb (winE balW (balanceC true)) out := by
  have hask : askedOrder .snowflake (winQ ["region"]) = [("balance", true)] := by decide +kernel
  refine window_answered hs balW_proper (by decide +kernel) (fun _ => ⟨by simp [winQ], fun o ho => ?_⟩) winDb _ (fun j hj => ?_) h1 ?_ h2
  · rw [hask, List.mem_singleton] at ho
    subst ho
    exact ⟨by decide, "balance", by simp [winQ], rfl⟩
  · obtain ⟨views, hv, hb, hbv, hjs, -⟩ := buildWinStmt_ok hs
    have he : (winEntries balW [] (winNames (winQ ["region"]))).insertionSort (fun a b => a.column ≤ b.column) = [balanceM .sum perAccount] := rfl
    rw [he] at hjs
    obtain ⟨m, hm, hmj⟩ := forall₂_mem_right hjs hj
    rw [List.mem_singleton.mp hm] at hmj
    obtain ⟨gs, date, sql, ws, hgs, hdate, hsql, hws, hcte, -⟩ := buildWinJoin_ok hmj
    have hwg : winGroups balW (winQ ["region"]) (balanceM .sum perAccount).win = ["accounts.account", "region"] := by decide +kernel
    have hd : balW.get (balanceM .sum perAccount).win.name = .ok dayF := by decide +kernel
    rw [hd] at hdate
    cases hdate
    cases hsql
    rw [hwg] at hgs hcte
    have e1 : balW.get "accounts.account" = .ok accountF := by decide +kernel
    have e2 : balW.get "region" = .ok bankF := by decide +kernel
    refine block_answered (ds := [accountF, bankF]) (ms := [tempField perAccount "accounts" "accounts.day"]) hcte ⟨?_, ?_, ?_, ?_, trivial, trivial⟩
      (by decide +kernel) (fun _ => ?_) winDb _
    · exact .cons (by decide +kernel) (.cons (by decide +kernel) .nil)
    · exact .cons (by decide +kernel) .nil
    · simp [accountF, bankF]
    · simp [tempField]
    · have hask' : askedOrder .snowflake (winQuestion (winQ ["region"]) ["accounts.account", "region"] "accounts.max_day") =
        [("accounts.max_day", true)] := by decide +kernel
      refine ⟨by simp [winQuestion], fun o ho => ?_⟩
      have ho : o ∈ askedOrder .snowflake (winQuestion (winQ ["region"]) ["accounts.account", "region"] "accounts.max_day") := ho
      rw [hask', List.mem_singleton] at ho
      subst ho
      exact ⟨by decide, "accounts.max_day", by simp [winQuestion]; decide +kernel, rfl⟩
  · intro n hn f hf
    obtain ⟨views, hv, hb, hbv, hjs, hrefs, hfields⟩ := buildWinStmt_ok hs
    have hfield : f.view = "accounts" := by
      rw [hfields] at hn
      have hn : n ∈ ["accounts.day", "accounts.account"] := hn
      have e1 : balW.get "accounts.account" = .ok accountF := by decide +kernel
      have e2 : balW.get "accounts.day" = .ok dayF := by decide +kernel
      simp only [List.mem_cons, List.not_mem_nil, or_false] at hn
      rcases hn with rfl | rfl
      · rw [e2] at hf; cases hf; rfl
      · rw [e1] at hf; cases hf; rfl
    obtain ⟨fs, hfs, -, hmem⟩ := hv
    show f.view ∈ s.block.views
    rw [hbv, hfield, hmem]
    obtain ⟨g, hg, hgn⟩ := forall₂_mem_left hfs (show "region" ∈ _ by decide +kernel)
    have e2 : balW.get "region" = .ok bankF := by decide +kernel
    have hgn : balW.get "region" = .ok g := hgn
    rw [e2] at hgn
    cases hgn
    exact ⟨bankF, hg, rfl⟩

/-- The hypotheses of C57 (a) hold of the example, so the balance by region is what the specification says. -/
example : ∃ s out, buildWinStmt balW .snowflake (winQ ["region"]) = .ok s ∧ s.Answers balW winDb (winE balW (balanceC true)) out ∧
    ∃ views E2 lines, QueryViews balW.project (winQ ["region"]) views ∧ ShowsCounted winDb balW .snowflake (winQ ["region"]) (fun _ _ _ => none) E2 ∧
      IsTable (winDb.rows views) (PassesWhere { winDb with engine := E2 } balW.project .snowflake views (winQ ["region"]))
        (fun r => [bankF].map (fun d => valueOf E2 .snowflake (balW.project.fpk views) d [r]))
        (fun G => [balanceF].map (fun m => valueOf E2 .snowflake (balW.project.fpk views) m G))
        (PassesHaving { winDb with engine := E2 } balW.project .snowflake views (winQ ["region"])) 1 lines ∧
      InOrder balW.project .snowflake (winQ ["region"]) lines ∧ Limited none lines out := by
  obtain ⟨s, hs, h1, h2⟩ := readyStmt_ok (x := buildWinStmt balW .snowflake (winQ ["region"])) (by decide +kernel)
  obtain ⟨out, ho⟩ := balW_answered s hs h1 h2
  have hask : askedOrder .snowflake (winQ ["region"]) = [("balance", true)] := by decide +kernel
  obtain ⟨views, E2, lines, k1, k2, k3, k4, k5⟩ := C57_table balW .snowflake (winQ ["region"]) s hs balW_windows [bankF] [balanceF] balW_proper
    (.inr (by intro m hm d hd hpk; rw [List.mem_singleton] at hd; subst hd; cases hpk)) (by simp) balW_labels (by simp [winQ])
    (by rw [hask]; decide) (.inl (by simp [winQ])) winDb (fun _ _ _ => none) _ (winE_reads _ _ balance_case) out ho
  exact ⟨s, out, hs, ho, views, E2, lines, k1, k2, k3, k4, k5⟩

/-- Which rows count in the example: the last day of each account. -/
example (views : List String) (hv : WindowViews balW (winQ ["region"]) perAccount views) :
    (∀ r ∈ [(1, 1, 2, 12), (2, 1, 3, -7), (3, 2, 2, 8)], Counts winDb balW .snowflake (winQ ["region"]) (fun _ _ _ => none) (balanceM .sum perAccount) views r) ∧
    ∀ r ∈ [(1, 1, 1, 10), (2, 1, 1, 5)], ¬ Counts winDb balW .snowflake (winQ ["region"]) (fun _ _ _ => none) (balanceM .sum perAccount) views r := by
  have hd : ∀ r, onRow balW winDb.engine "accounts.day" r = some (r.2.2.1 : ℚ) := fun r => rfl
  have ha : ∀ r, onRow balW winDb.engine "accounts.account" r = some (r.1 : ℚ) := fun r => rfl
  have hr : ∀ r, onRow balW winDb.engine "region" r = some (r.2.1 : ℚ) := fun r => rfl
  have hsame : ∀ r x, SameWindow balW winDb.engine (winQ ["region"]) perAccount r x ↔ r.1 = x.1 ∧ r.2.1 = x.2.1 := by
    intro r x
    constructor
    · intro h
      have h1 := (h "accounts.account" (.inl (List.mem_singleton.mpr rfl))).1
      have h2 := (h "region" (.inr ⟨List.mem_singleton.mpr rfl, .inl rfl⟩)).1
      rw [ha, ha] at h1
      rw [hr, hr] at h2
      simp only [Option.some.injEq, Nat.cast_inj] at h1 h2
      exact ⟨h1, h2⟩
    · rintro ⟨h1, h2⟩ n hn
      have : n = "accounts.account" ∨ n = "region" := by
        rcases hn with h | ⟨h, -⟩
        · exact .inl (List.mem_singleton.mp h)
        · exact .inr (List.mem_singleton.mp h)
      rcases this with rfl | rfl
      · rw [ha, ha, h1]; exact ⟨rfl, fun _ => by simp⟩
      · rw [hr, hr, h2]; exact ⟨rfl, fun _ => by simp⟩
  have hrows : winDb.rows views = [(1, 1, 1, 10), (1, 1, 2, 12), (2, 1, 1, 5), (2, 1, 3, -7), (3, 2, 2, 8)] := by
    refine if_neg fun hc => ?_
    obtain ⟨n, f, hn, hf, hfv⟩ := (hv.2 "customers").mp hc
    have : n = "accounts.account" ∨ n = "region" ∨ n = "accounts.day" := by
      rcases hn with (h | ⟨h, -⟩) | h | h
      · exact .inl (List.mem_singleton.mp h)
      · exact .inr (.inl (List.mem_singleton.mp h))
      · exact .inr (.inr h)
      · cases h
    have e1 : balW.get "accounts.account" = .ok accountF := by decide +kernel
    have e2 : balW.get "region" = .ok bankF := by decide +kernel
    have e3 : balW.get "accounts.day" = .ok dayF := by decide +kernel
    rcases this with rfl | rfl | rfl
    · rw [e1] at hf; cases hf; revert hfv; decide
    · rw [e2] at hf; cases hf; revert hfv; decide
    · rw [e3] at hf; cases hf; revert hfv; decide
  have hpass : ∀ x, PassesWhere winDb balW.project .snowflake views (winQ ["region"]) x := fun x => ⟨fun i hi => (by cases hi), fun v hv => (by cases hv)⟩
  have htimes : ∀ r t, WindowTimes winDb balW .snowflake (winQ ["region"]) perAccount views r t ↔
      ∃ x ∈ [(1, 1, 1, 10), (1, 1, 2, 12), (2, 1, 1, 5), (2, 1, 3, -7), (3, 2, 2, 8)], (r.1 = x.1 ∧ r.2.1 = x.2.1) ∧ ((x.2.2.1 : ℕ) : ℚ) = t := by
    intro r t
    unfold WindowTimes
    rw [hrows]
    constructor
    · rintro ⟨x, hx, -, h1, h2⟩
      refine ⟨x, hx, (hsame r x).mp h1, ?_⟩
      have h2 : some ((x.2.2.1 : ℕ) : ℚ) = some t := h2
      exact Option.some.inj h2
    · rintro ⟨x, hx, h1, h2⟩
      exact ⟨x, hx, hpass x, (hsame r x).mpr h1, by rw [← h2]; exact hd x⟩
  constructor
  · intro r hmem
    refine ⟨⟨(r.2.2.1 : ℕ), hd r, ?_, ?_⟩, ?_, ?_⟩
    · refine (htimes r _).mpr ⟨r, ?_, ⟨rfl, rfl⟩, rfl⟩
      revert r
      decide +kernel
    · intro u hu
      obtain ⟨x, hx, h1, rfl⟩ := (htimes r u).mp hu
      have : ∀ r ∈ [(1, 1, 2, (12 : ℤ)), (2, 1, 3, -7), (3, 2, 2, 8)], ∀ x ∈ [(1, 1, 1, (10 : ℤ)), (1, 1, 2, 12), (2, 1, 1, 5), (2, 1, 3, -7), (3, 2, 2, 8)],
        r.1 = x.1 ∧ r.2.1 = x.2.1 → x.2.2.1 ≤ r.2.2.1 := by decide +kernel
      exact Nat.cast_le.mpr (this r hmem x hx h1)
    · intro g hg
      rw [List.mem_singleton.mp hg, ha]
      simp
    · intro f hf
      cases hf
  · rintro r hmem ⟨⟨t, ht, -, hmax⟩, -⟩
    have ht : some ((r.2.2.1 : ℕ) : ℚ) = some t := ht
    cases ht
    have : ∀ r ∈ [(1, 1, 1, (10 : ℤ)), (2, 1, 1, 5)], ∃ x ∈ [(1, 1, 1, (10 : ℤ)), (1, 1, 2, 12), (2, 1, 1, 5), (2, 1, 3, -7), (3, 2, 2, 8)],
        (r.1 = x.1 ∧ r.2.1 = x.2.1) ∧ r.2.2.1 < x.2.2.1 := by decide +kernel
    obtain ⟨x, hx, h1, h2⟩ := this r hmem
    have := hmax _ ((htimes r _).mpr ⟨x, hx, h1, rfl⟩)
    exact absurd (Nat.cast_le.mp this) (by omega)

/-! ### What goes wrong -/

section
variable {ρ : Type}

theorem refs_missing {W : WinProject} {w : Warehouse} {q : Question}
    (h : (match buildWinStmt W w q with | .ok s => decide (∃ r ∈ s.refs, (s.joins.flatMap WinJoin.columns).count (lower r) ≠ 1) | .error _ => false) = true) :
    ∃ s, buildWinStmt W w q = .ok s ∧ ∀ (D : Db ρ) (E' : Engine (WRow ρ)) (out : List (List Val)), ¬ s.Answers W D E' out := by
  cases hs : buildWinStmt W w q with
  | error e => rw [hs] at h; cases h
  | ok s =>
    rw [hs] at h
    simp only [decide_eq_true_eq] at h
    obtain ⟨r, hr, hne⟩ := h
    exact ⟨s, rfl, fun D E' out ⟨_, _, _, _, href, _⟩ => hne (href r hr)⟩

/-- C57 (i): the date of a metric may be named in another view, but such a query is never answered: the CASE expression refers to the subquery's
column by the metric's view and the column is called after the date's. -/
theorem C57_other_view : ∃ s, buildWinStmt (winW (balanceM .sum ⟨"calendar.day", .max, true, [], false⟩)) .snowflake (winQ ["region"]) = .ok s ∧
    ∀ (D : Db ρ) (E' : Engine (WRow ρ)) (out : List (List Val)), ¬ s.Answers (winW (balanceM .sum ⟨"calendar.day", .max, true, [], false⟩)) D E' out :=
  refs_missing (by decide +kernel)

/-- Two metrics named balance, in two views, each with its own date named day. -/
def twoBalances : WinProject :=
  { winW (balanceM .sum perAccount) with
    win := fun n => if n = "accounts.balance" then some (balanceM .sum ⟨"accounts.day", .max, true, [], false⟩)
      else if n = "calendar.balance" then some { balanceM .sum ⟨"calendar.day", .max, true, [], false⟩ with view := "calendar" } else none }

/-- C57 (j): two metrics of the same name in different views, whose dates have the same name, share one subquery, and the query is never
answered. -/
theorem C57_same_names : ∃ s, buildWinStmt twoBalances .snowflake { winQ ["region"] with metrics := ["accounts.balance", "calendar.balance"] } = .ok s ∧
    ∀ (D : Db ρ) (E' : Engine (WRow ρ)) (out : List (List Val)), ¬ s.Answers twoBalances D E' out :=
  refs_missing (by decide +kernel)

end

/-- The latest day of all, whatever the dimensions of the query. -/
def overall : WinDef := ⟨"accounts.day", .max, false, [], false⟩

/-- C57 (k): the latest day is looked for in the views of the windows and filters only. When the query's other fields bring in views whose join loses
that day's rows, no row of the query counts, although there are rows: the metric is zero everywhere. -/
theorem C57_latest_elsewhere : ∃ (D : Db (Nat × Nat × Nat × Int)) (W : WinProject) (m : WinMeasure) (q : Question),
    W.win "balance" = some m ∧ q.metrics = ["balance"] ∧ ∀ views cviews, QueryViews W.project q views → WindowViews W q m.win cviews →
      D.rows views ≠ [] ∧ (∀ r ∈ D.rows views, PassesWhere D W.project .snowflake views q r ∧ onRow W D.engine m.win.name r ≠ none) ∧
      ∀ r ∈ D.rows views, ¬ Counts D W .snowflake q (fun _ _ _ => none) m cviews r := by
  refine ⟨winDb, winW (balanceM .sum overall), balanceM .sum overall, winQ ["city"], rfl, rfl, fun views cviews hv hc => ?_⟩
  have e1 : (winW (balanceM .sum overall)).get "accounts.day" = .ok dayF := by decide +kernel
  have e2 : (winW (balanceM .sum overall)).get "city" = .ok cityF := by decide +kernel
  have hin : "customers" ∈ views := by
    obtain ⟨fs, hfs, -, hmem⟩ := hv
    obtain ⟨g, hg, hgn⟩ := forall₂_mem_left hfs (show "city" ∈ _ by decide +kernel)
    have hgn : (winW (balanceM .sum overall)).get "city" = .ok g := hgn
    rw [e2] at hgn
    cases hgn
    exact (hmem "customers").mpr ⟨_, hg, rfl⟩
  have hsplit : ∀ n, ¬ SplitsWindow (winW (balanceM .sum overall)) (winQ ["city"]) (balanceM .sum overall).win n := by
    rintro n (h | ⟨-, h | h⟩)
    · cases h
    · cases h
    · cases h
  have hout : "customers" ∉ cviews := by
    intro h
    obtain ⟨n, f, hn, hf, hfv⟩ := (hc.2 "customers").mp h
    rcases hn with hn | rfl | hn
    · exact hsplit n hn
    · have hf : (winW (balanceM .sum overall)).get "accounts.day" = .ok f := hf
      rw [e1] at hf
      cases hf
      revert hfv
      decide
    · cases hn
  have h1 : winDb.rows views = [(1, 1, 1, 10), (1, 1, 2, 12)] := if_pos hin
  have h2 : winDb.rows cviews = [(1, 1, 1, 10), (1, 1, 2, 12), (2, 1, 1, 5), (2, 1, 3, -7), (3, 2, 2, 8)] := if_neg hout
  have hd : ∀ r, onRow (winW (balanceM .sum overall)) winDb.engine "accounts.day" r = some (r.2.2.1 : ℚ) := fun r => rfl
  refine ⟨by rw [h1]; simp, fun r _ => ⟨⟨fun i hi => (by cases hi), fun v hv => (by cases hv)⟩, ?_⟩, ?_⟩
  · have : onRow (winW (balanceM .sum overall)) winDb.engine (balanceM .sum overall).win.name r = some (r.2.2.1 : ℚ) := hd r
    rw [this]
    simp
  · rintro r hr ⟨⟨t, ht, -, hmax⟩, -⟩
    have ht : some ((r.2.2.1 : ℕ) : ℚ) = some t := ht
    cases ht
    have := hmax ((3 : ℕ) : ℚ) ⟨(2, 1, 3, -7), by rw [h2]; simp, ⟨fun i hi => (by cases hi), fun v hv => (by cases hv)⟩,
      fun n hn => absurd hn (hsplit n), hd _⟩
    have h3 := Nat.cast_le.mp this
    rw [h1] at hr
    simp only [List.mem_cons, List.not_mem_nil, or_false] at hr
    rcases hr with rfl | rfl <;> simp at h3

end ML
