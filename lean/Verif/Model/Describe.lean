import Verif.Model.Entry

/-
`Timespan.replace`, and how time spans, events and todos describe themselves.
-/
namespace Ics

/-- The arguments of `Timespan.replace` (/repo/src/ics/timespan.py:174-180); `none` is `False`, the default. -/
structure ReplaceArgs where
  begin? : Option (Option DT) := none
  end? : Option (Option DT) := none
  dur? : Option (Option Int) := none
  prec : Option Precision := none

/-- `Timespan.replace` (/repo/src/ics/timespan.py:174-194). -/
def Env.replace (e : Env) (s : Span) (a : ReplaceArgs) : Except PyErr Span :=
  let b := match a.begin? with
    | none => s.begin?
    | some v => v
  let en := match a.end? with
    | none => s.end?
    | some v => v
  let d := match a.dur? with
    | none => s.dur?
    | some v => v
  let p := match a.prec with
    | none => s.prec
    | some v => v
  e.mkSpan ⟨s.cls, b, en, d, p⟩

/-- What Python writes for values: `str(datetime)`, `strftime("%Y-%m-%d")`, `str(timedelta)`
(/repo/src/ics/timespan.py:316-334).  Not modelled further. -/
structure Shown where
  dt : DT → Str
  date : DT → Str
  td : Int → Str

/-- `_end_name` (/repo/src/ics/timespan.py:168-169, 582-583, 602-603). -/
def SpanCls.endWord : SpanCls → Str
  | .todo => "due".toList
  | _ => "end".toList

/-- `self.__class__.__name__` (/repo/src/ics/timespan.py:338). -/
def SpanCls.name : SpanCls → Str
  | .plain => "Timespan".toList
  | .event => "EventTimespan".toList
  | .todo => "TodoTimespan".toList

/-- `strftime` for all-day spans, else `str` (/repo/src/ics/timespan.py:315-318, 326-329). -/
def Span.show (s : Span) (v : Shown) (d : DT) : Str := if s.isAllDay then v.date d else v.dt d

/-- The first part of `get_str_segments` (/repo/src/ics/timespan.py:303-308). -/
def Span.describePrefix (s : Span) : List Str :=
  if s.isAllDay then ["all-day".toList]
  else if s.isFloating then ["floating".toList]
  else []

/-- The third part of `get_str_segments` (/repo/src/ics/timespan.py:310-336). -/
def Env.describeSuffix (e : Env) (v : Shown) (s : Span) : Except PyErr (List Str) := do
  let beginPart := match s.begin? with
    | none => []
    | some b => ["begin:".toList, s.show v b]
  let en ← e.effEnd s
  let endPart := match en with
    | none => []
    | some en => (if s.endRepr = .end_ then ["fixed".toList] else []) ++ [s.cls.endWord ++ [':'], s.show v en]
  let dur ← e.effDur s
  let durPart := match dur with
    | none => []
    | some d =>
      if s.endRepr = .none then []
      else (if s.endRepr = .duration then ["fixed".toList] else []) ++ ["duration:".toList, v.td d]
  .ok (beginPart ++ endPart ++ durPart)

/-- `' '.join(...)` (/repo/src/ics/timespan.py:342, event.py:192). -/
def joinSpace : List Str → Str
  | [] => []
  | [a] => a
  | a :: b :: l => a ++ ' ' :: joinSpace (b :: l)

/-- `Timespan.__str__` (/repo/src/ics/timespan.py:340-342). -/
def Env.spanStr (e : Env) (v : Shown) (s : Span) : Except PyErr Str := do
  let suffix ← e.describeSuffix v s
  .ok ('<' :: joinSpace (s.describePrefix ++ [s.cls.name] ++ suffix) ++ ['>'])

/-- `CalendarEntryAttrs.__str__` (/repo/src/ics/event.py:187-192); the name of the class is that of `Event` and `Todo`. -/
def Env.entryStr (e : Env) (v : Shown) (x : Entry) : Except PyErr Str := do
  let name := if x.tsType = .todo then "Todo".toList else "Event".toList
  let summary := match x.summary with
    | none => []
    | some [] => []
    | some t => ['\'' :: t ++ ['\'']]
  let suffix ← e.describeSuffix v x.timespan
  .ok ('<' :: joinSpace (x.timespan.describePrefix ++ name :: summary ++ suffix) ++ ['>'])

end Ics
