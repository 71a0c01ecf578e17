import Verif.Model.CalendarText

/-
A calendar line by line: `Calendar.__iter__` and `Calendar.__str__` (/repo/src/ics/icalendar.py:147-166).
-/
namespace Ics

/-- The characters at which `str.splitlines` ends a line (Python documentation of `str.splitlines`, used in
/repo/src/ics/icalendar.py:166): LF, CR, VT, FF, FS, GS, RS, NEL, LS and PS. -/
def isLineEnd (c : Char) : Bool :=
  c = '\n' || c = '\r' || c = '\x0b' || c = '\x0c' || c = '\x1c' || c = '\x1d' || c = '\x1e' || c = '\u0085' ||
    c = '\u2028' || c = '\u2029'

/-- `splitlines(keepends=True)` (/repo/src/ics/icalendar.py:166); `cur` is the reversed text since the last
line end.  CR and LF together are one line end. -/
def splitKeep (cur : Str) : Str → List Str
  | [] => if cur = [] then [] else [cur.reverse]
  | '\r' :: '\n' :: s => ('\n' :: '\r' :: cur).reverse :: splitKeep [] s
  | c :: s => if isLineEnd c then (c :: cur).reverse :: splitKeep [] s else splitKeep (c :: cur) s

/-- `Calendar.__iter__` (/repo/src/ics/icalendar.py:155-166). -/
def calendarLines (L : Lib) (w : Wrap) (o : CalObj) : Except PyErr (List Str) := do
  let txt ← serializeCalendar L w o
  .ok (splitKeep [] txt)

/-- "event" or "events" and the like (/repo/src/ics/icalendar.py:148-152). -/
def countOf (n : Nat) (what : Str) : Str := natStr n ++ ' ' :: what ++ (if n = 1 then [] else ['s'])

/-- The number of members in a list attribute (`len(self.events)`, /repo/src/ics/icalendar.py:149-152). -/
def lenOf (o : CalObj) (attr : Str) : Nat :=
  match o.get attr with
  | .many l => l.length
  | _ => 0

/-- `Calendar.__str__` (/repo/src/ics/icalendar.py:147-153). -/
def calendarStr (o : CalObj) : Str :=
  "<Calendar with ".toList ++ countOf (lenOf o "events".toList) "event".toList ++ " and ".toList ++
    countOf (lenOf o "todos".toList) "todo".toList ++ ['>']

end Ics
