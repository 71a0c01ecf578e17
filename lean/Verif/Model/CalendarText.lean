import Verif.Model.Component

/-
Calendars as text: `Calendar.serialize`, `Calendar(str)` and `Calendar.parse_multiple`
(/repo/src/ics/component.py:65-68, icalendar.py:78-117).
-/
namespace Ics

/-- `Component.serialize` (/repo/src/ics/component.py:65-68) with the line wrapping that is in effect
(/repo/src/ics/contentline/container.py:19-42, 246-258). -/
def serializeCalendar (L : Lib) (w : Wrap) (o : CalObj) : Except PyErr Str := do
  match ← dumpCalendar L o with
  | .cont name items => serContainer w false name items
  | .line _ => .error .typeError

/-- `Calendar(imports)` for a `str`, or the items of any parser run (/repo/src/ics/icalendar.py:82-100):
the first container is loaded before the rest is looked at; an exception of the parser comes through; no
container at all, a line instead of a container, or anything after the first container is a
`ValueError`. -/
def calendarOfItems (L : Lib) (g : Gen Item) : Except PyErr CalObj :=
  match g.items with
  | [] =>
    match g.err with
    | some e => .error e
    | none => .error .valueError
  | i :: rest => do
    let o ← loadCalendarItem L i
    match rest, g.err with
    | _ :: _, _ => .error .valueError
    | [], some e => .error e
    | [], none => .ok o

/-- `Calendar(string)` (/repo/src/ics/icalendar.py:82-83). -/
def calendarOfString (L : Lib) (txt : Str) : Except PyErr CalObj := calendarOfItems L (stringToContainers txt)

/-- `Calendar(lines)` (/repo/src/ics/icalendar.py:84-85). -/
def calendarOfLines (L : Lib) (lines : List Str) : Except PyErr CalObj := calendarOfItems L (linesToContainers lines)

/-- `Calendar(imports=c)` for an item of the parser (/repo/src/ics/icalendar.py:78-85, 117): a container is
loaded; a content line is iterated as a list of lines, which raises: `line[0]` looks up the parameter `0`
(/repo/src/ics/contentline/container.py:194-195), a `KeyError`. -/
def parseMultipleItem (L : Lib) : Item → Except PyErr CalObj
  | .cont name items => loadCalendarItem L (.cont name items)
  | .line _ => .error .keyError

/-- The loop of `parse_multiple` (/repo/src/ics/icalendar.py:116-117). -/
def parseMultipleItems (L : Lib) (err : Option PyErr) : List Item → Except PyErr (List CalObj)
  | [] =>
    match err with
    | some e => .error e
    | none => .ok []
  | i :: is => do
    let o ← parseMultipleItem L i
    let os ← parseMultipleItems L err is
    .ok (o :: os)

/-- `Calendar.parse_multiple` (/repo/src/ics/icalendar.py:110-117). -/
def parseMultiple (L : Lib) (txt : Str) : Except PyErr (List CalObj) :=
  let g := stringToContainers txt
  parseMultipleItems L g.err g.items

end Ics
