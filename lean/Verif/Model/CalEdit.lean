import Verif.Model.Assign

/-
Changing a calendar after it was made or read.
-/
namespace Ics

/-- The lists of a calendar (/repo/src/ics/icalendar.py:27-32). -/
inductive CalList where
  | events
  | todos
deriving DecidableEq, Repr

/-- The name of the attribute (/repo/src/ics/icalendar.py:27, 30). -/
def CalList.attr : CalList → Str
  | .events => "events".toList
  | .todos => "todos".toList

/-- What a program does to a calendar: it assigns to an attribute (`RuntimeAttrValidation.__setattr__`,
/repo/src/ics/types.py:126-140), changes the event or todo at some place of a list, appends one, or deletes one; the
lists are Python lists (/repo/src/ics/icalendar.py:27-32).  Simplified: no event or todo is at two places, and indices
are not negative. -/
inductive CalEdit where
  | assign (attr : Str) (v : AttrVal EntryObj)
  | change (list : CalList) (i : Nat) (chs : List (Change Alarm))
  | append (list : CalList) (m : EntryObj)
  | delete (list : CalList) (i : Nat)

/-- One step: `calendar.version = v` (/repo/src/ics/types.py:126-140), `calendar.events[i].summary = v`,
`calendar.events.append(m)`, `del calendar.events[i]` (/repo/src/ics/icalendar.py:27-32). -/
def Obj.calEdit (L : Lib) (o : CalObj) : CalEdit → Except PyErr CalObj
  | .assign attr v => o.change L (.assign attr v)
  | .change list i chs =>
    match o.get list.attr with
    | .many l =>
      match l[i]? with
      | some (.comp m) => do
        let m ← m.changes L chs
        .ok { o with attrs := dictSet o.attrs list.attr (.many (l.set i (.comp m))) }
      | some _ => .error .attributeError
      | none => .error .indexError
    | _ => .error .typeError
  | .append list m =>
    match o.get list.attr with
    | .many l => .ok { o with attrs := dictSet o.attrs list.attr (.many (l ++ [.comp m])) }
    | _ => .error .attributeError
  | .delete list i =>
    match o.get list.attr with
    | .many l =>
      if i < l.length then .ok { o with attrs := dictSet o.attrs list.attr (.many (l.eraseIdx i)) }
      else .error .indexError
    | _ => .error .typeError

/-- Several steps, one after the other, all of which succeed (/repo/src/ics/types.py:126-140, icalendar.py:27-32). -/
def Obj.calEdits (L : Lib) (o : CalObj) : List CalEdit → Except PyErr CalObj
  | [] => .ok o
  | e :: rest => o.calEdit L e >>= fun o => o.calEdits L rest

end Ics
