import Verif.Basic
import Verif.Dates.Civil
/-
Relative dates in filter values: `/repo/metrics_layer/core/model/filter.py`, `Filter._start_date`,
`_end_date`, `_add_to_end_date`, `parse_date_condition` and its three interval parsers.
-/
set_option autoImplicit false
namespace ML

/-! ### Date and time -/

/-- A local date and time, to the second. Simplifications: no daylight saving change falls inside the
arithmetic, and fractions of seconds are dropped, as `_date_to_string` (filter.py 482-484) does. -/
structure DateTime where
  date : Date
  sec : ℤ
  deriving DecidableEq, Repr

/-- The date exists and the time is one of its seconds. filter.py 164-198. -/
structure DateTime.Valid (t : DateTime) : Prop where
  date : t.date.Valid
  s0 : 0 ≤ t.sec
  s1 : t.sec < 86400

/-- Pendulum's process-wide first and last day of the week, Monday being 0
(`pendulum.week_starts_at`, `pendulum.week_ends_at`; filter.py 151-161). -/
structure WeekState where
  starts : ℤ
  ends : ℤ
  deriving DecidableEq, Repr

/-- `week_start_day_lookup.get(name, MONDAY)` (filter.py 115-125, 153). -/
def weekStartNumber (name : Option String) : ℤ :=
  match name with
  | some "monday" => 0
  | some "tuesday" => 1
  | some "wednesday" => 2
  | some "thursday" => 3
  | some "friday" => 4
  | some "saturday" => 5
  | some "sunday" => 6
  | _ => 0

/-- The week settings `Filter._set_week_start_day` makes (filter.py 151-156). -/
def weekStateFor (name : Option String) : WeekState :=
  ⟨weekStartNumber name, if weekStartNumber name ≠ 0 then weekStartNumber name - 1 else 6⟩

/-- `FilterInterval` (filter.py 80-87). -/
inductive Interval where
  | unknown | day | week | month | quarter | year
  deriving DecidableEq, Repr

/-- Pendulum's `previous(day)`: the latest earlier date on that weekday. The loop runs at most seven
times, which bounds the recursion. filter.py 176-188. -/
def prevWeekday (w : ℤ) : ℕ → Date → Date
  | 0, d => d
  | n + 1, d => if d.prev.weekday = w then d.prev else prevWeekday w n d.prev

/-- Pendulum's `next(day)`: the earliest later date on that weekday. filter.py 164-174. -/
def nextWeekday (w : ℤ) : ℕ → Date → Date
  | 0, d => d
  | n + 1, d => if d.next.weekday = w then d.next else nextWeekday w n d.next

/-- Pendulum's `quarter`. filter.py 169-194. -/
def Date.quarter (d : Date) : ℤ := (d.month - 1) / 3 + 1

/-- Pendulum's `start_of(unit)`, and `first_of("quarter")` (filter.py 181-184). -/
def startOf (ws : WeekState) (u : Interval) (d : Date) : Res DateTime :=
  match u with
  | .unknown => .error .typeError
  | .day => .ok ⟨d, 0⟩
  | .week => .ok ⟨if d.weekday = ws.starts then d else prevWeekday ws.starts 7 d, 0⟩
  | .month => .ok ⟨⟨d.year, d.month, 1⟩, 0⟩
  | .quarter => .ok ⟨⟨d.year, d.quarter * 3 - 2, 1⟩, 0⟩
  | .year => .ok ⟨⟨d.year, 1, 1⟩, 0⟩

/-- Pendulum's `end_of(unit)`, and `last_of("quarter")`, which is the midnight that begins the last day
(filter.py 169-172, 193-196). -/
def endOf (ws : WeekState) (u : Interval) (d : Date) : Res DateTime :=
  match u with
  | .unknown => .error .typeError
  | .day => .ok ⟨d, 86399⟩
  | .week => .ok ⟨if d.weekday = ws.ends then d else nextWeekday ws.ends 7 d, 86399⟩
  | .month => .ok ⟨⟨d.year, d.month, daysInMonth d.year d.month⟩, 86399⟩
  | .quarter => .ok ⟨⟨d.year, d.quarter * 3, daysInMonth d.year (d.quarter * 3)⟩, 0⟩
  | .year => .ok ⟨⟨d.year, 12, 31⟩, 86399⟩

/-- `date.add(**{plural: n})`, months times three for quarters (filter.py 170-172, 182-184, 194-196).
An unknown unit is not an argument of pendulum's `add` and `subtract`. -/
def shift (u : Interval) (n : ℤ) (d : Date) : Res Date :=
  match u with
  | .unknown => .error .typeError
  | .day => .ok (d.addDays n)
  | .week => .ok (d.addDays (7 * n))
  | .month => .ok (d.addMonths n)
  | .quarter => .ok (d.addMonths (3 * n))
  | .year => .ok (d.addMonths (12 * n))

/-- `Filter._start_date` (filter.py 175-187). -/
def startDate (ws : WeekState) (now : DateTime) (lag : ℤ) (u : Interval) : Res DateTime :=
  match shift u (-lag) now.date with
  | .error e => .error e
  | .ok d => startOf ws u d

/-- `Filter._end_date` (filter.py 163-173). -/
def endDate (ws : WeekState) (now : DateTime) (lag : ℤ) (u : Interval) : Res DateTime :=
  match shift u (-lag) now.date with
  | .error e => .error e
  | .ok d => endOf ws u d

/-- `Filter._add_to_end_date` (filter.py 189-197). -/
def addToEndDate (ws : WeekState) (t : DateTime) (lag : ℤ) (u : Interval) : Res DateTime :=
  match shift u lag t.date with
  | .error e => .error e
  | .ok d => endOf ws u d

/-! ### Regular expressions

A parser returns every way to match a prefix of the text, in the order in which Python's
backtracking `re` tries them. -/

/-- Ways to match a prefix: what was captured, and the rest. filter.py 258-335. -/
abbrev Matches (α : Type) := List (α × List Char)

/-- A literal text. filter.py 258-335. -/
def reLit (w s : List Char) : Matches (List Char) :=
  if w.isPrefixOf s then [(w, s.drop w.length)] else []

/-- A greedy `c+` for a class of characters: longest first. filter.py 258-335. -/
def rePlus (p : Char → Bool) : List Char → Matches (List Char)
  | [] => []
  | c :: cs => if p c then (rePlus p cs).map (fun m => (c :: m.1, m.2)) ++ [([c], cs)] else []

/-- One after the other. filter.py 258-335. -/
def reThen {α β : Type} (a : List Char → Matches α) (f : α → List Char → Matches β) (s : List Char) :
    Matches β := (a s).flatMap (fun m => f m.1 m.2)

/-- `re.search`: the first way to match at the first position that matches. filter.py 260, 288, 329. -/
def reSearch {α : Type} (p : List Char → Matches α) : List Char → Option α
  | [] => (p []).head?.map (·.1)
  | c :: cs =>
    match p (c :: cs) with
    | m :: _ => some m.1
    | [] => reSearch p cs

/-- `\d` (simplification: ASCII digits only). filter.py 258-335. -/
def isDigitChar (c : Char) : Bool := '0' ≤ c && c ≤ '9'

/-- The words of `FilterInterval.all()` in order, each with its plural (filter.py 102-104). -/
def intervalWords : List (List Char × Interval) :=
  [("unknown".toList, .unknown), ("unknowns".toList, .unknown), ("day".toList, .day), ("days".toList, .day),
   ("week".toList, .week), ("weeks".toList, .week), ("month".toList, .month), ("months".toList, .month),
   ("quarter".toList, .quarter), ("quarters".toList, .quarter), ("year".toList, .year), ("years".toList, .year)]

/-- `({interval_condition})` (filter.py 242): the alternatives in order. The captured word is kept as
the interval it names (`FilterInterval.plural`, `singular`, filter.py 94-100). -/
def reInterval (s : List Char) : Matches Interval :=
  intervalWords.flatMap (fun w => (reLit w.1 s).map (fun m => (w.2, m.2)))

/-- `\s+`. filter.py 258-335. -/
def reSpaces (s : List Char) : Matches (List Char) := rePlus isSpace s

/-- `\d+`. filter.py 258-335. -/
def reDigits (s : List Char) : Matches (List Char) := rePlus isDigitChar s

/-- `(\d+|this|last)\s+(interval)` (filter.py 259). -/
def reNInterval (s : List Char) : Matches (List Char × Interval) :=
  reThen (fun s => reDigits s ++ reLit "this".toList s ++ reLit "last".toList s)
    (fun n => reThen reSpaces (fun _ => reThen reInterval (fun u r => [((n, u), r)]))) s

/-- A word and the white space after it, as one capture. filter.py 258-335. -/
def reWordSpaces (w s : List Char) : Matches (List Char) :=
  reThen (reLit w) (fun a => reThen reSpaces (fun b r => [(a ++ b, r)])) s

/-- `(\d+\s+|this\s+|last\s+|)` (filter.py 287). -/
def reCount (s : List Char) : Matches (List Char) :=
  reThen reDigits (fun a => reThen reSpaces (fun b r => [(a ++ b, r)])) s
    ++ reWordSpaces "this".toList s ++ reWordSpaces "last".toList s ++ [([], s)]

/-- `(ago\s+to\s+date|ago|to\s+date)` (filter.py 287). -/
def reModifier (s : List Char) : Matches (List Char) :=
  reThen (reLit "ago".toList) (fun a => reThen reSpaces (fun b => reThen (reLit "to".toList) (fun c =>
    reThen reSpaces (fun d => reThen (reLit "date".toList) (fun e r => [(a ++ b ++ c ++ d ++ e, r)]))))) s
  ++ reLit "ago".toList s
  ++ reThen (reLit "to".toList) (fun c => reThen reSpaces (fun d =>
      reThen (reLit "date".toList) (fun e r => [(c ++ d ++ e, r)]))) s

/-- `(\d+\s+|this\s+|last\s+|)(interval)\s+(ago\s+to\s+date|ago|to\s+date)` (filter.py 287). -/
def reNIntervalModifier (s : List Char) : Matches (List Char × Interval × List Char) :=
  reThen reCount (fun n => reThen reInterval (fun u => reThen reSpaces (fun _ =>
    reThen reModifier (fun m r => [((n, u, m), r)])))) s

/-- `(\d+)\s+(interval)\s+ago\s+for\s+(\d+)\s+(interval)` (filter.py 328). -/
def reAgoFor (s : List Char) : Matches (List Char × Interval × List Char × Interval) :=
  reThen reDigits (fun n => reThen reSpaces (fun _ => reThen reInterval (fun u => reThen reSpaces (fun _ =>
    reThen (reLit "ago".toList) (fun _ => reThen reSpaces (fun _ => reThen (reLit "for".toList) (fun _ =>
      reThen reSpaces (fun _ => reThen reDigits (fun k => reThen reSpaces (fun _ =>
        reThen reInterval (fun v r => [((n, u, k, v), r)]))))))))))) s

/-- `int(text)` for a text of digits. filter.py 258-335. -/
def digitsToInt (ds : List Char) : ℤ := ds.foldl (fun n c => 10 * n + (c.toNat - 48 : ℕ)) 0

/-! ### The parsers -/

/-- The two comparisons dates are filtered with (`GreaterOrEqualThan`, `LessOrEqualThan`). filter.py 200-256. -/
inductive Bound where
  | ge | le
  deriving DecidableEq, Repr

/-- A list of `(expression, value)` (filter.py 230); the values are printed by `_date_to_string`. -/
abbrev Window := List (Bound × DateTime)

/-- `Filter._parse_n_interval` (filter.py 257-283). -/
def parseNInterval (ws : WeekState) (now : DateTime) (s : List Char) : Res (Option Window) :=
  match reSearch reNInterval s with
  | none => .ok none
  | some (n, u) =>
    let lag := if n = "this".toList then 0 else if n = "last".toList then 1 else digitsToInt n - 1
    match startDate ws now lag u with
    | .error e => .error e
    | .ok a =>
      match endDate ws now (if n = "last".toList then lag else 0) u with
      | .error e => .error e
      | .ok b => .ok (some [(.ge, a), (.le, b)])

/-- Whole days from `a` to `b` (`time_change.days`, filter.py 314-315; `b` is not before `a` here). -/
def daysBetween (a b : DateTime) : ℤ :=
  ((b.date.ordinal - a.date.ordinal) * 86400 + (b.sec - a.sec)) / 86400

/-- `Filter._parse_n_interval_modifier` (filter.py 285-324). -/
def parseNIntervalModifier (ws : WeekState) (now : DateTime) (s : List Char) : Res (Option Window) :=
  match reSearch reNIntervalModifier s with
  | none => .ok none
  | some (n0, u, modifier) =>
    let n := strip n0
    let lag := if n = "this".toList ∨ n = [] then 0 else if n = "last".toList then 1
      else if modifier = "to date".toList then digitsToInt n - 1 else digitsToInt n
    match startDate ws now lag u with
    | .error e => .error e
    | .ok a =>
      if modifier = "ago to date".toList ∨ modifier = "to date".toList then
        match startDate ws now 0 u with
        | .error e => .error e
        | .ok p =>
          let days := daysBetween p now
          match addToEndDate ws a (if days > 0 then days - 1 else 0) .day with
          | .error e => .error e
          | .ok b => .ok (some [(.ge, a), (.le, b)])
      else if modifier = "ago".toList then
        match endDate ws now lag u with
        | .error e => .error e
        | .ok b => .ok (some [(.ge, a), (.le, b)])
      else .ok (some [(.ge, a)])

/-- `Filter._parse_n_interval_ago_for` (filter.py 326-346). -/
def parseAgoFor (ws : WeekState) (now : DateTime) (s : List Char) : Res (Option Window) :=
  match reSearch reAgoFor s with
  | none => .ok none
  | some (n, u, k, v) =>
    match startDate ws now (digitsToInt n) u with
    | .error e => .error e
    | .ok a =>
      match addToEndDate ws a (digitsToInt k - 1) v with
      | .error e => .error e
      | .ok b => .ok (some [(.ge, a), (.le, b)])

/-- One digit from `lo` to `hi`. filter.py 474. -/
def reDigit (lo hi : Char) (s : List Char) : Matches (List Char) :=
  match s with
  | c :: cs => if lo ≤ c && c ≤ hi then [([c], cs)] else []
  | [] => []

/-- Two parts glued together. filter.py 474. -/
def reGlue (a b : List Char → Matches (List Char)) (s : List Char) : Matches (List Char) :=
  reThen a (fun x => reThen b (fun y r => [(x ++ y, r)])) s

/-- The regular expression `strptime` builds for `%Y-%m-%d`. filter.py 474. -/
def reDate (s : List Char) : Matches (List Char × List Char × List Char) :=
  reThen (reGlue (reDigit '0' '9') (reGlue (reDigit '0' '9') (reGlue (reDigit '0' '9') (reDigit '0' '9'))))
    (fun y => reThen (reLit ['-']) (fun _ =>
      reThen (fun s => reGlue (reLit ['1']) (reDigit '0' '2') s ++ reGlue (reLit ['0']) (reDigit '1' '9') s
          ++ reDigit '1' '9' s)
        (fun m => reThen (reLit ['-']) (fun _ =>
          reThen (fun s => reGlue (reLit ['3']) (reDigit '0' '1') s
              ++ reGlue (reDigit '1' '2') (reDigit '0' '9') s
              ++ reGlue (reLit ['0']) (reDigit '1' '9') s ++ reDigit '1' '9' s
              ++ reGlue (reLit [' ']) (reDigit '1' '9') s)
            (fun d r => [((y, m, d), r)]))))) s

/-- `Filter._parse_date_string` (filter.py 472-475): `strptime(s, "%Y-%m-%d")`, at midnight. -/
def parseDateString (s : List Char) : Res DateTime :=
  match reDate s with
  | [] => .error .valueError
  | ((y, m, d), rest) :: _ =>
    if rest ≠ [] then .error .valueError
    else
      let date : Date := ⟨digitsToInt y, digitsToInt m, digitsToInt (strip d)⟩
      if 1 ≤ date.year ∧ date.day ≤ daysInMonth date.year date.month then .ok ⟨date, 0⟩ else .error .valueError

/-- `parse_date_condition` without the " until " branch (filter.py 225-255). -/
def parseSimple (ws : WeekState) (now : DateTime) (s : List Char) : Res (Option Window) :=
  if s = "today".toList then
    match startDate ws now 0 .day with
    | .error e => .error e
    | .ok a =>
      match endDate ws now 0 .day with
      | .error e => .error e
      | .ok b => .ok (some [(.ge, a), (.le, b)])
  else if s = "yesterday".toList then
    match startDate ws now 1 .day with
    | .error e => .error e
    | .ok a =>
      match endDate ws now 1 .day with
      | .error e => .error e
      | .ok b => .ok (some [(.ge, a), (.le, b)])
  else
    match parseAgoFor ws now s with
    | .error e => .error e
    | .ok (some r) => .ok (some r)
    | .ok none =>
      match parseNIntervalModifier ws now s with
      | .error e => .error e
      | .ok (some r) => .ok (some r)
      | .ok none => parseNInterval ws now s

/-- Where `sep` first occurs: the text before and the text after. filter.py 205. -/
def splitFirst (sep : List Char) : List Char → Option (List Char × List Char)
  | [] => none
  | c :: cs =>
    if sep.isPrefixOf (c :: cs) then some ([], (c :: cs).drop sep.length)
    else (splitFirst sep cs).map (fun p => (c :: p.1, p.2))

/-- One side of " until ": the parsed window, or the date it spells (filter.py 208-213, 216-221). -/
def untilSide (ws : WeekState) (now : DateTime) (b : Bound) (pick : Window → Option (Bound × DateTime))
    (s : List Char) : Res (Bound × DateTime) :=
  match parseSimple ws now s with
  | .error e => .error e
  | .ok none =>
    match parseDateString s with
    | .error e => .error e
    | .ok t => .ok (b, t)
  | .ok (some w) =>
    match pick w with
    | none => .error .indexError
    | some x => .ok x

/-- `Filter.parse_date_condition` (filter.py 199-255) on a string. `split(" until ")` must give two
parts, else unpacking fails; neither part contains the separator, so the recursive calls never take
this branch again. -/
def parseDateCondition (ws : WeekState) (now : DateTime) (s : List Char) : Res (Option Window) :=
  match splitFirst " until ".toList s with
  | none => parseSimple ws now s
  | some (first, second) =>
    match splitFirst " until ".toList second with
    | some _ => .error .valueError
    | none =>
      match untilSide ws now .ge List.head? first with
      | .error e => .error e
      | .ok a =>
        match untilSide ws now .le List.getLast? second with
        | .error e => .error e
        | .ok b => .ok (some [a, b])

end ML
