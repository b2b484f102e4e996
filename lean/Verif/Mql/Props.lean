import Verif.Mql.Reads
import Mathlib.Tactic.FinCases

/-!
# C65: an MQL statement asks what is written in it, and the SQL around it is kept
-/

set_option autoImplicit false

namespace ML
open Spec

/-- **C65.** A statement that is written in its parts, in the order of the documentation, asks exactly for what is written: its
metrics, its dimensions, its funnel with every step, its time and its view, and the three clauses word for word. Whether the words
are in capitals does not matter. -/
theorem C65_reads_partial (env : MqlEnv) (w : WrittenMql) (h : w.Ok env) : readMql env w.tokens = .ok w.meaning := by
  have e1 := loop_names_metrics env {} w.metrics rfl h.metrics
  have key : ∀ (st : MqlState), mqlLoop env {} (w.metrics ++ funnelTokens w.funnel) = .ok st → st.mode = .metrics →
      st.dimensions = [] ∧ st.where_ = [] ∧ st.having = [] ∧ st.orderBy = [] → st.metrics = namesIn w.metrics →
      funnelOf st = w.meaning.funnel → readMql env w.tokens = .ok w.meaning := by
    intro st e hm h0 hmet hf
    obtain ⟨st', e', a1, a2, a3, a4, a5, a6⟩ := loop_rest env w h st hm h0
    have ht : w.tokens = (w.metrics ++ funnelTokens w.funnel) ++
        (partTokens w.by_ ++ (whereTokens w.where_ ++ (partTokens w.having ++ partTokens w.order))) := by
      unfold WrittenMql.tokens; simp
    unfold readMql
    rw [ht, loop_then _ _ _ _ _ e, e']
    show Except.ok (queryOf st') = _
    unfold queryOf
    rw [a1, a2, a3, a4, a5, a6, hf, hmet]
    rfl
  cases hf : w.funnel with
  | none =>
    refine key { metrics := namesIn w.metrics } ?_ rfl ⟨rfl, rfl, rfl, rfl⟩ rfl (by simp [WrittenMql.meaning, hf, funnelOf])
    rw [hf, show funnelTokens none = [] from rfl, List.append_nil, e1]
    simp
  | some f =>
    have hok := h.funnel f hf
    obtain ⟨sp, e2⟩ := loop_funnel env { metrics := namesIn w.metrics } f hok rfl
    refine key _ ((by rw [hf, loop_then _ _ _ _ _ e1]; rfl : _ = mqlLoop env { metrics := namesIn w.metrics } f.tokens).trans e2)
      rfl ⟨rfl, rfl, rfl, rfl⟩ rfl ?_
    · simp only [WrittenMql.meaning, hf, Option.map_some, funnelOf, List.nil_append]
      have hne : (stepLists f.first (f.more.map (·.2)) f.lastText).isEmpty = false := by
        cases f.more <;> rfl
      rw [hne]
      have hv : lower f.viewName ≠ "" := by
        intro e
        have := congrArg String.toList e
        simp [lower] at this
        exact hok.viewName.1 this
      simp only [Bool.false_eq_true, if_false, Option.some.injEq, hv, WrittenFunnel.meaning, stepLists_texts]

/-- The question with nothing but metrics and dimensions. -/
def plainQuery (metrics dimensions : List String) : MqlQuery where
  metrics := metrics
  dimensions := dimensions
  funnel := none
  where_ := none
  having := none
  orderBy := none

/-- A keyword that begins no part is passed over among the names, and the names after it are read on: a dimension whose name is a
keyword of SQL (`month`) is not grouped by, and after `ORDER` and `BY` with anything but one blank between them the names of the
order become dimensions. -/
theorem C65_keyword_ignored (env : MqlEnv) (metrics dims more : List MqlTok) (b s : String)
    (hm : ∀ t ∈ metrics, NameTok false t) (hb : IsWord b "BY") (hd : ∀ t ∈ dims, NameTok true t) (ho : ∀ t ∈ more, NameTok true t)
    (hs : ∀ w ∈ partWords, ¬ IsWord s w) (hs' : ¬ IsWord s "SOURCE") :
    readMql env (metrics ++ .keyword b :: (dims ++ .keyword s :: more)) = .ok (plainQuery (namesIn metrics) (namesIn dims ++ namesIn more)) := by
  unfold readMql
  rw [loop_then _ _ _ _ _ (loop_names_metrics env {} metrics rfl hm), loop_cons _ _ _ _ _ (step_by env _ b rfl hb),
    loop_then _ _ _ _ _ (loop_names_dimensions env _ dims rfl hd),
    loop_cons _ _ _ _ _ (step_keyword_ignored env _ s (Or.inr rfl) hs hs'), loop_names_dimensions env _ more rfl ho]
  rfl

/-- In a step of a funnel a keyword other than `AND` and `OR` (`IN`, `IS`, `NOT NULL`, `BETWEEN`) loses itself and what the step
had before it: the question is the one of the funnel without that text. -/
theorem C65_funnel_keyword (env : MqlEnv) (w : WrittenMql) (f : WrittenFunnel) (h : w.Ok env) (hf : w.funnel = some f)
    (lost : List MqlTok) (s : String) (hl : ∀ t ∈ lost, StepTok t) (hs : ∀ x ∈ partWords, ¬ IsWord s x)
    (hc : (strip s.toList).map Char.toUpper ≠ "AND".toList ∧ (strip s.toList).map Char.toUpper ≠ "OR".toList) :
    readMql env { w with funnel := some { f with first := lost ++ MqlTok.keyword s :: f.first } }.tokens = .ok w.meaning := by
  rw [← C65_reads_partial env w h]
  have hok := h.funnel f hf
  have e1 := loop_names_metrics env {} w.metrics rfl h.metrics
  have hrest : ∀ tail, mqlLoop env { metrics := namesIn w.metrics }
      ({ f with first := lost ++ MqlTok.keyword s :: f.first }.tokens ++ tail) = mqlLoop env { metrics := namesIn w.metrics } (f.tokens ++ tail) := by
    intro tail
    have hpre : ∀ rest, mqlLoop env { metrics := namesIn w.metrics }
        (.keyword f.forWord :: f.gap.map .space ++ f.view :: (openTokens f.funnelWord ++ rest)) =
        mqlLoop env { metrics := namesIn w.metrics, funnelFor := some (lower f.viewName), mode := .funnel, step := some [] } rest := by
      intro rest
      rw [List.cons_append, loop_cons _ _ _ _ _ (step_for env _ _ rfl hok.forWord),
        loop_then env _ _ _ _ (loop_blanks env _ f.gap hok.gaps.1 (by simp)),
        loop_cons _ _ _ _ _ (step_view env _ f.view f.viewName rfl hok.view hok.viewText hok.viewName.2)]
      have e1 : mqlLoop env { metrics := namesIn w.metrics, funnelFor := some (lower f.viewName), mode := .funnel, step := some [] }
          (openTokens f.funnelWord) =
          .ok { metrics := namesIn w.metrics, funnelFor := some (lower f.viewName), mode := .funnel, step := some [] } := by
        cases hw : f.funnelWord with
        | none => rfl
        | some p =>
          obtain ⟨lead, x⟩ := p
          obtain ⟨h1, h2⟩ := hok.funnelWord lead x hw
          unfold openTokens
          rw [loop_then env _ _ _ _ (loop_stepToks env _ lead [] rfl rfl h1), loop_cons _ _ _ _ _ (step_funnelWord env _ x rfl h2)]
          rfl
      rw [loop_then env _ _ _ _ e1]
    have ht : ∀ g : WrittenFunnel, g.tokens ++ tail = .keyword g.forWord :: g.gap.map .space ++ g.view :: (openTokens g.funnelWord ++
        (g.first ++ ((g.more.flatMap fun p => MqlTok.keyword p.1 :: p.2) ++
        g.last :: (g.gap'.map .space ++ .name g.time :: g.after.map .space)) ++ tail)) := by
      intro g
      unfold WrittenFunnel.tokens
      simp
    rw [ht, ht]
    simp only
    rw [hpre, hpre]
    rw [List.append_assoc, List.append_assoc, loop_then env _ _ _ _ (loop_stepToks env _ lost [] rfl rfl hl), List.cons_append,
      loop_cons env { metrics := namesIn w.metrics, funnelFor := some (lower f.viewName), mode := .funnel, step := some ([] ++ lost.map MqlTok.text) }
        _ _ _ (step_keyword_forgets env _ s rfl hs hc)]
    simp only [List.append_assoc]
  unfold readMql
  congr 1
  unfold WrittenMql.tokens
  simp only [hf, funnelTokens]
  rw [loop_then _ _ _ _ _ e1, loop_then _ _ _ _ _ e1]
  simp only [List.nil_append]
  exact hrest _

/-- **C65.** The SQL around the calls of `MQL` is kept. If the text of each call stands nowhere else in the SQL as it is when the call is
replaced, the result is the SQL with every call at its place replaced by the SQL of its question (in parentheses unless the call is all
there is), with an end of statement if there was none. The statements after the first (`rest`) are kept as they are. -/
theorem C65_text_partial (env : MqlEnv) (l : List (Top × String)) (rest sql : String)
    (hsql : sql = allText (l.map (·.1.text)) ++ rest) (hb : ∀ p ∈ l, Becomes env sql p.1 p.2)
    (ho : ∀ a p b c al, l = a ++ p :: b → Has p.1 c al →
      OnlyThere (allText (a.map (·.2))).toList c.text.toList (al ++ allText (b.map (·.1.text)) ++ rest).toList)
    (hne : allText (l.map (·.2)) ++ rest ≠ "") :
    convertSql env sql (l.map (·.1)) =
      .ok (if (allText (l.map (·.2)) ++ rest).toList.getLast? = some ';' then allText (l.map (·.2)) ++ rest
        else allText (l.map (·.2)) ++ rest ++ ";") := by
  have h := convertAll_puts env sql rest.toList l [] hb (fun a p b c al e hh => by
    have := ho a p b c al e hh
    simpa [allText, flatText] using this)
  have e1 : String.ofList ([] ++ (flatText (l.map (·.1.text)) ++ rest.toList)) = sql := by
    rw [hsql]
    apply String.toList_inj.mp
    simp [allText, flatText]
  have e2 : String.ofList ([] ++ (flatText (l.map (·.2)) ++ rest.toList)) = allText (l.map (·.2)) ++ rest := by
    apply String.toList_inj.mp
    simp [allText, flatText]
  rw [e1, e2] at h
  unfold convertSql
  rw [h]
  show withSemicolon (allText (l.map (·.2)) ++ rest) = _
  unfold withSemicolon
  cases hl : (allText (l.map (·.2)) ++ rest).toList.getLast? with
  | none =>
    exact absurd (String.toList_inj.mp (by rw [List.getLast?_eq_none_iff.mp hl]; rfl)) hne
  | some c =>
    by_cases hc : c = ';' <;> simp [hc]

/-- SQL without a call of `MQL` among the tokens of its first statement is returned as it is, with an end of statement: a call inside a
sub-select, in a list of tables or in a later statement is not converted, and nothing is said about it. -/
theorem C65_left_alone (env : MqlEnv) (sql : String) (tops : List Top) (h : ∀ t ∈ tops, Stays t) (hne : sql ≠ "") :
    convertSql env sql tops = .ok (if sql.toList.getLast? = some ';' then sql else sql ++ ";") := by
  have hc : convertAll env sql sql tops = .ok sql := by
    induction tops with
    | nil => rfl
    | cons t ts ih =>
      show (convertTop env sql sql t).bind (fun conv => convertAll env sql conv ts) = _
      rw [convertTop_stays env sql sql t (h t (by simp))]
      exact ih (fun u hu => h u (List.mem_cons_of_mem _ hu))
  unfold convertSql
  rw [hc]
  show withSemicolon sql = _
  unfold withSemicolon
  cases hl : sql.toList.getLast? with
  | none => exact absurd (String.toList_inj.mp (by rw [List.getLast?_eq_none_iff.mp hl]; rfl)) hne
  | some c => by_cases hc : c = ';' <;> simp [hc]

/-- The word `MQL` without parentheses is refused, whatever stands around it, unless a call before it was refused already. -/
theorem C65_no_parentheses (env : MqlEnv) (sql : String) (before after : List Top) (s : String) (h : MqlHead) (hs : IsWord s "MQL")
    (hb : ∀ t ∈ before, Stays t) : convertSql env sql (before ++ .ident s h :: after) = .error .parse := by
  have hc : ∀ conv, convertAll env sql conv (before ++ .ident s h :: after) = .error .parse := by
    intro conv
    induction before with
    | nil =>
      show (convertTop env sql conv (.ident s h)).bind _ = _
      simp only [convertTop]
      rw [if_pos ((upper_eq_iff _ _).mpr hs)]
      rfl
    | cons t ts ih =>
      show (convertTop env sql conv t).bind (fun conv => convertAll env sql conv (ts ++ .ident s h :: after)) = _
      rw [convertTop_stays env sql conv t (hb t (by simp))]
      exact ih (fun u hu => hb u (List.mem_cons_of_mem _ hu))
  unfold convertSql
  rw [hc]
  rfl

/-- A call whose question cannot be answered makes the whole conversion raise the same error. -/
theorem C65_refused (env : MqlEnv) (sql : String) (before after : List Top) (t : Top) (c : MqlCall) (al : String) (e : Err)
    (hb : ∀ t ∈ before, Stays t) (ht : Has t c al) (hq : resolveMql env c.args = .error e) :
    convertSql env sql (before ++ t :: after) = .error e := by
  have hm : upper c.name = "MQL" := by
    rw [← callIn_mql]
    obtain ⟨hc, _, ht⟩ := ht
    rcases ht with ⟨rfl, _⟩ | ⟨rfl, _⟩ <;>
    · cases hm : callIn.IsMql c with
      | true => rfl
      | false => simp [callIn, hm] at hc
  have hp : parseAndResolve env sql c = .error e := by
    unfold parseAndResolve
    rw [if_pos hm, hq]
    rfl
  have h1 : ∀ conv, convertTop env sql conv t = .error e := by
    intro conv
    obtain ⟨hc, hct, ht⟩ := ht
    rcases ht with ⟨rfl, _⟩ | ⟨rfl, hw⟩
    · simp only [convertTop]
      rw [hp]; rfl
    · show (if upper (c.text ++ al) = "MQL" then _ else if containsSub "MQL(".toList (upper (c.text ++ al)).toList then
        (parseAndResolve env sql c).bind (fun q => Except.ok (putIn conv c.text q)) else _) = _
      rw [if_neg (fun e => hw ((upper_eq_iff _ _).mp e)), if_pos]
      · rw [hp]; rfl
      · have e : (upper (c.text ++ al)).toList = c.text.toList.map Char.toUpper ++ al.toList.map Char.toUpper := by simp [upper]
        rw [e]
        exact containsSub_prefix "MQL(".toList _ _ hct
  have hc : ∀ conv, convertAll env sql conv (before ++ t :: after) = .error e := by
    intro conv
    induction before with
    | nil =>
      show (convertTop env sql conv t).bind _ = _
      rw [h1]; rfl
    | cons u ts ih =>
      show (convertTop env sql conv u).bind (fun conv => convertAll env sql conv (ts ++ t :: after)) = _
      rw [convertTop_stays env sql conv u (hb u (by simp))]
      exact ih (fun x hx => hb x (List.mem_cons_of_mem _ hx))
  unfold convertSql
  rw [hc]
  rfl

/-! ### Cases -/

/-- A place to convert SQL: `int` knows one number, and the SQL of a question names what is asked for. -/
def mqlEnv : MqlEnv where
  int s := if s = "3" then some 3 else none
  resolve q := .ok ("select " ++ joinTexts q.metrics)

/-- `FOR Orders FUNNEL channel = 'Paid' THEN channel = 'Organic' WITHIN 3 Days`, as sqlparse groups it. -/
def mqlFunnel : WrittenFunnel where
  forWord := "for"
  gap := [" "]
  view := .name "Orders FUNNEL"
  viewName := "Orders"
  funnelWord := none
  first := [.space " ", .other "channel = 'Paid'", .space " ", .keyword "and", .space " ", .other "x > 1", .space " "]
  more := [("then", [.space " "])]
  last := .other "channel = 'Organic' WITHIN"
  lastText := "channel = 'Organic' "
  gap' := [" "]
  time := "3 Days"
  number := "3"
  value := 3
  unit := "Days"
  after := [" "]

theorem stepTok_of (t : MqlTok) (h : strip (t.text.toList.map Char.toUpper) ≠ "FUNNEL".toList ∧ t.text.toList.map Char.toUpper ≠ "THEN".toList ∧
    containsSub "WITHIN".toList (t.text.toList.map Char.toUpper) = false) (hk : t.isKeyword = false) : StepTok t :=
  ⟨h.1, h.2.1, h.2.2, fun s e => by rw [e] at hk; cases hk⟩

theorem mqlFunnel_ok : mqlFunnel.Ok mqlEnv where
  forWord := by unfold IsWord; decide +kernel
  gaps := by refine ⟨?_, ?_, ?_⟩ <;> (unfold IsBlank; decide +kernel)
  view := rfl
  viewText := Or.inr ⟨"FUNNEL", by decide +kernel⟩
  viewName := by decide +kernel
  funnelWord := by intro lead w h; cases h
  first := by
    intro t ht
    fin_cases ht
    · exact stepTok_of _ (by decide +kernel) rfl
    · exact stepTok_of _ (by decide +kernel) rfl
    · exact stepTok_of _ (by decide +kernel) rfl
    · refine ⟨by unfold IsTrimmedWord; decide +kernel, by unfold IsWord; decide +kernel, by decide +kernel, ?_⟩
      intro s e
      cases e
      decide +kernel
    · exact stepTok_of _ (by decide +kernel) rfl
    · exact stepTok_of _ (by decide +kernel) rfl
    · exact stepTok_of _ (by decide +kernel) rfl
  more := by
    intro p hp
    fin_cases hp
    refine ⟨by unfold IsWord; decide +kernel, ?_⟩
    intro t ht
    fin_cases ht
    refine ⟨by unfold IsTrimmedWord; decide +kernel, by unfold IsWord; decide +kernel, by decide +kernel, ?_⟩
    intro s hs; cases hs
  last := rfl
  lastText := ⟨"WITHIN", "", by decide +kernel, by unfold IsWord; decide +kernel⟩
  lastOnce := by decide +kernel
  time := by decide +kernel
  words := by decide +kernel
  value := by decide +kernel

/-- `orders, revenue FOR ... By region, SOURCE WHERE region != 'West' HAVING revenue > 1 AND orders > 2 ORDER BY revenue`. -/
def mqlWritten : WrittenMql where
  metrics := [.names "orders, revenue" ["orders", "revenue"], .space " "]
  funnel := some mqlFunnel
  by_ := some ("By", [.space " ", .name "region", .other ",", .keyword "SOURCE", .space " "])
  where_ := some ("WHERE", [" ", "region != 'West'", " "], [])
  having := some ("HAVING", [.space " ", .other "revenue > 1", .keyword "AND", .other "orders > 2", .space " "])
  order := some ("ORDER BY", [.space " ", .name "revenue"])

theorem clauseTok_of (t : MqlTok) (h1 : ¬ IsTrimmedWord t.text "FUNNEL") (h2 : t.isKeyword = false) : ClauseTok t :=
  ⟨h1, fun s e => by rw [e] at h2; cases h2⟩

theorem mqlWritten_ok : mqlWritten.Ok mqlEnv where
  metrics := by
    intro t ht
    fin_cases ht
    · show ¬ IsTrimmedWord _ _; unfold IsTrimmedWord; decide +kernel
    · show IsBlank _; unfold IsBlank; decide +kernel
  funnel := by intro f hf; cases hf; exact mqlFunnel_ok
  by_ := by
    intro b ts h
    cases h
    refine ⟨by unfold IsWord; decide +kernel, ?_⟩
    intro t ht
    fin_cases ht
    · show IsBlank _; unfold IsBlank; decide +kernel
    · show ¬ IsTrimmedWord _ _; unfold IsTrimmedWord; decide +kernel
    · show ¬ IsTrimmedWord _ _; unfold IsTrimmedWord; decide +kernel
    · exact ⟨rfl, by unfold IsWord; decide +kernel⟩
    · show IsBlank _; unfold IsBlank; decide +kernel
  where_ := by
    intro k texts blanks h
    cases h
    exact ⟨by unfold IsWord; decide +kernel, by simp⟩
  having := by
    intro k ts h
    cases h
    refine ⟨by unfold IsWord; decide +kernel, ?_⟩
    intro t ht
    fin_cases ht
    · exact clauseTok_of _ (by unfold IsTrimmedWord; decide +kernel) rfl
    · exact clauseTok_of _ (by unfold IsTrimmedWord; decide +kernel) rfl
    · refine ⟨by unfold IsTrimmedWord; decide +kernel, ?_⟩
      intro s e
      cases e
      unfold IsWord
      decide +kernel
    · exact clauseTok_of _ (by unfold IsTrimmedWord; decide +kernel) rfl
    · exact clauseTok_of _ (by unfold IsTrimmedWord; decide +kernel) rfl
  order := by
    intro k ts h
    cases h
    refine ⟨by unfold IsWord; decide +kernel, ?_⟩
    intro t ht
    fin_cases ht
    · exact clauseTok_of _ (by unfold IsTrimmedWord; decide +kernel) rfl
    · exact clauseTok_of _ (by unfold IsTrimmedWord; decide +kernel) rfl

/-- The hypotheses of `C65_reads_partial` and of `C65_funnel_keyword` can be met, and the question is what one reads. -/
example : mqlWritten.Ok mqlEnv ∧ mqlWritten.meaning = {
    metrics := ["orders", "revenue"], dimensions := ["region", "SOURCE"],
    funnel := some { steps := ["channel = 'Paid' and x > 1", "channel = 'Organic'"], value := 3, unit := "days", viewName := some "orders" },
    where_ := some "region != 'West'", having := some "revenue > 1ANDorders > 2", orderBy := some "revenue" } :=
  ⟨mqlWritten_ok, by decide +kernel⟩

/-- `revenue BY month`, where sqlparse takes `month` for a keyword: the dimension is left out without a word, and the answer is one total. -/
theorem C65_month : readMql mqlEnv [.name "revenue", .space " ", .keyword "BY", .space " ", .keyword "month"] =
    .ok (plainQuery ["revenue"] []) := by decide +kernel

/-- `revenue BY region ORDER  BY orders` with two blanks: the order becomes a dimension. -/
theorem C65_order_blanks : readMql mqlEnv [.name "revenue", .space " ", .keyword "BY", .space " ", .name "region", .space " ",
    .keyword "ORDER  BY", .space " ", .name "orders"] = .ok (plainQuery ["revenue"] ["region", "orders"]) := by decide +kernel

/-- A value with the text `within` in it ends the steps there: of `FUNNEL status = 'within_sla' THEN x = 1 WITHIN 3 days` the first step is
broken and comes twice. -/
theorem C65_funnel_within : readMql mqlEnv [.name "orders", .space " ", .keyword "FOR", .space " ", .name "orders FUNNEL", .space " ",
    .other "status = 'within_sla'", .space " ", .keyword "THEN", .space " ", .other "x = 1 WITHIN", .space " ", .name "3 days"] =
    .ok { plainQuery ["orders"] [] with
      funnel := some { steps := ["status = '", "status = '", "x = 1"], value := 3, unit := "days", viewName := some "orders" } } := by
  decide +kernel

/-- The call `MQL(a)`. -/
def mqlCall : MqlCall where
  name := "MQL"
  args := [.name "a"]
  text := "MQL(a)"

/-- The text of a call in quotes is replaced with the call: the SQL around the call is not kept. -/
theorem C65_literal : convertSql mqlEnv "SELECT 'MQL(a)' FROM MQL(a)" [.other "SELECT", .other " ", .other "'MQL(a)'", .other " ", .other "FROM",
    .other " ", .call mqlCall] = .ok "SELECT '(select a)' FROM (select a);" := by decide +kernel

/-- A call in a sub-select with an alias is not converted: what is sent to the warehouse still has `MQL` in it. -/
theorem C65_nested : convertSql mqlEnv "SELECT * FROM (SELECT * FROM MQL(a)) as t" [.other "SELECT", .other " ", .other "*", .other " ",
    .other "FROM", .other " ", .ident "(SELECT * FROM MQL(a)) as t" .group] = .ok "SELECT * FROM (SELECT * FROM MQL(a)) as t;" := by
  decide +kernel

/-- The hypotheses of `C65_text_partial` can be met: `select * from MQL(a) as t`. -/
example : ∃ l : List (Top × String), convertSql mqlEnv "select * from MQL(a) as t" (l.map (·.1)) = .ok "select * from (select a) as t;" ∧
    (∀ p ∈ l, Becomes mqlEnv "select * from MQL(a) as t" p.1 p.2) ∧
    ∀ a p b c al, l = a ++ p :: b → Has p.1 c al →
      OnlyThere (allText (a.map (·.2))).toList c.text.toList (al ++ allText (b.map (·.1.text)) ++ "").toList := by
  refine ⟨[(.other "select * from ", "select * from "), (.ident "MQL(a) as t" (.call mqlCall), "(select a) as t")], by decide +kernel, ?_, ?_⟩
  · intro p hp
    fin_cases hp
    · exact Or.inl ⟨⟨rfl, by intro s h e; cases e⟩, rfl⟩
    · exact Or.inr ⟨mqlCall, " as t", "select a", ⟨by decide +kernel, by unfold CallText; decide +kernel,
        Or.inr ⟨by decide +kernel, by unfold IsWord; decide +kernel⟩⟩, by decide +kernel, by decide, by decide +kernel⟩
  · intro a p b c al h hh
    have hcall : p = (.ident "MQL(a) as t" (.call mqlCall), "(select a) as t") ∧ a = [(.other "select * from ", "select * from ")] ∧ b = [] := by
      match a, h with
      | [], h =>
        cases h
        exact absurd hh.1 (by simp [callIn])
      | [x], h => cases h; exact ⟨rfl, rfl, rfl⟩
      | x :: y :: z, h => simp at h
    obtain ⟨rfl, rfl, rfl⟩ := hcall
    have hc : c = mqlCall := by
      have := hh.1
      have e : callIn (.ident "MQL(a) as t" (.call mqlCall)) = some mqlCall := by decide +kernel
      exact (Option.some.inj (e.symm.trans this)).symm
    have hal : al = " as t" := by
      rcases hh.2.2 with ⟨e, _⟩ | ⟨e, _⟩
      · cases e
      · have := (Top.ident.inj e).1
        rw [hc] at this
        have := congrArg String.toList this
        rw [String.toList_append] at this
        have e2 : "MQL(a) as t".toList = mqlCall.text.toList ++ " as t".toList := by decide +kernel
        rw [e2] at this
        exact (String.toList_inj.mp (List.append_cancel_left this)).symm
    subst hc hal
    intro a b e
    -- the text of the call begins with the only `M`
    have hM : ∀ (pre x y : List Char), 'M' ∉ pre → 'M' ∉ y → ∀ a b, pre ++ ('M' :: (x ++ y)) = a ++ ('M' :: (x ++ b)) → 'M' ∉ x → a = pre := by
      intro pre x y hp hy a b e hx
      induction pre generalizing a with
      | nil =>
        cases a with
        | nil => rfl
        | cons c a =>
          rw [List.nil_append, List.cons_append] at e
          have := (List.cons.inj e).2
          have hm : 'M' ∈ x ++ y := by rw [this]; simp
          rcases List.mem_append.mp hm with h | h
          · exact absurd h hx
          · exact absurd h hy
      | cons c pre ih =>
        cases a with
        | nil =>
          rw [List.nil_append, List.cons_append] at e
          exact absurd (by rw [(List.cons.inj e).1]; simp) hp
        | cons d a =>
          rw [List.cons_append, List.cons_append] at e
          obtain ⟨h1, h2⟩ := List.cons.inj e
          rw [h1, ih (fun h => hp (List.mem_cons_of_mem _ h)) a h2]
    have ht : mqlCall.text.toList = 'M' :: "QL(a)".toList := by decide +kernel
    rw [ht] at e
    rw [List.cons_append, List.cons_append] at e
    exact hM _ "QL(a)".toList _ (by decide +kernel) (by decide +kernel) a b e (by decide +kernel)

/-- The hypotheses of the other theorems can be met. -/
example : (∀ w ∈ partWords, ¬ IsWord "month" w) ∧ ¬ IsWord "month" "SOURCE" ∧
    (∀ w ∈ partWords, ¬ IsWord "IN" w) ∧ (strip "IN".toList).map Char.toUpper ≠ "AND".toList ∧
    StepTok (.name "status") ∧ Stays (.other "(SELECT * FROM MQL(a))") ∧ IsWord "mql" "MQL" := by
  refine ⟨by unfold IsWord; decide +kernel, by unfold IsWord; decide +kernel, by unfold IsWord; decide +kernel, by decide +kernel, ?_,
    ⟨rfl, by intro s h e; cases e⟩, by unfold IsWord; decide +kernel⟩
  refine ⟨by unfold IsTrimmedWord; decide +kernel, by unfold IsWord; decide +kernel, by decide +kernel, ?_⟩
  intro s hs; cases hs

end ML
