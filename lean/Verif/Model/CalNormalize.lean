import Verif.Model.CalEdit

/-
`Calendar.normalize` on whole calendars.
-/
namespace Ics

/-- What `Calendar.normalize` does with one event or todo (/repo/src/ics/icalendar.py:140-145): it is left alone if it is
all-day (`all_day`, event.py:156-158), otherwise `Normalization.normalize` looks at `floating` (event.py:177-179;
timespan.py:90-99, 114-127) and assigns another `timespan` with `replace_timezone` or `convert_timezone`
(event.py:181-185; timespan.py:101-107).  `AttributeError` stands for what happens if there is no time span. -/
def Obj.normalized (L : Lib) (n : Normalization) (m : EntryObj) : Except PyErr EntryObj :=
  match m.get "timespan".toList with
  | .one (.span s) =>
    if s.isAllDay then .ok m
    else
      match n.action s.isFloating with
      | .ignore => .ok m
      | .replace => do
        let t ← L.replaceTimezone s n.replacement
        m.change L (.assign "timespan".toList (.one (.span t)))
      | .convert => do
        let t ← L.convertTimezone s n.replacement
        m.change L (.assign "timespan".toList (.one (.span t)))
  | _ => .error .attributeError

/-- The list comprehension (/repo/src/ics/icalendar.py:140-145).  Simplified: the objects in the list are distinct; what
was changed before an exception is in `Env.normalizeAll`. -/
def normalizedMembers (L : Lib) (n : Normalization) : List (Val EntryObj) → Except PyErr (List (Val EntryObj))
  | [] => .ok []
  | .comp m :: rest => do
    let m ← m.normalized L n
    let rest ← normalizedMembers L n rest
    .ok (.comp m :: rest)
  | _ :: _ => .error .attributeError

/-- The assignment to one of the lists (/repo/src/ics/icalendar.py:140-142, 143-145). -/
def Obj.normalizeList (L : Lib) (n : Normalization) (o : CalObj) (list : CalList) : Except PyErr CalObj :=
  match o.get list.attr with
  | .many l => do
    let l ← normalizedMembers L n l
    .ok { o with attrs := dictSet o.attrs list.attr (.many l) }
  | _ => .error .typeError

/-- `Calendar.normalize` with a `Normalization` (/repo/src/ics/icalendar.py:132-145); `replacement` gives the same zone
each time. -/
def Obj.normalizeCalendar (L : Lib) (n : Normalization) (o : CalObj) : Except PyErr CalObj := do
  let o ← o.normalizeList L n .events
  o.normalizeList L n .todos

end Ics
