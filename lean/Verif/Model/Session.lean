import Verif.Model.CalNormalize
import Verif.Model.TimeEdit
import Verif.Model.Clone
import Verif.Model.PutExtra
import Verif.Model.Strip

/-
Everything that a program can do to a calendar between reading and writing it.
-/
namespace Ics

/-- One operation: a change as in `CalEdit` (/repo/src/ics/types.py:126-140, icalendar.py:27-32), operations on the times of
the event or todo at some place (event.py:101-185, todo.py:66-71), `Calendar.normalize` (icalendar.py:132-145), appending a
clone of the event or todo at some place (component.py:96-99), changing the unknown properties of the calendar or of an event
or todo (component.py:18-20), or `strip_extras` for one of them (component.py:70-93). -/
inductive CalOp where
  | edit (e : CalEdit)
  | times (list : CalList) (i : Nat) (cs : List Edit)
  | normalize (n : Normalization)
  | copy (list : CalList) (i : Nat)
  | extra (place : Option (CalList × Nat)) (items : List Item)
  | strip (place : Option (CalList × Nat)) (a : StripArgs)

/-- `calendar.strip_extras(…)` or `calendar.events[i].strip_extras(…)` (/repo/src/ics/component.py:70-93,
icalendar.py:27-32). -/
def Obj.stripAt (o : CalObj) (place : Option (CalList × Nat)) (a : StripArgs) : Except PyErr CalObj :=
  match place with
  | none => stripExtras a o
  | some (list, i) =>
    match o.get list.attr with
    | .many l =>
      match l[i]? with
      | some (.comp m) => do
        let m ← stripExtras a m
        .ok { o with attrs := dictSet o.attrs list.attr (.many (l.set i (.comp m))) }
      | some _ => .error .attributeError
      | none => .error .indexError
    | _ => .error .typeError

/-- Carries out one operation (/repo/src/ics/types.py:126-140, icalendar.py:27-32, 132-145, event.py:101-185,
todo.py:66-71, component.py:18-20, 70-99).  Simplified as in `CalEdit`; that the lists of a clone are its own is C108, its alarms are
not changed by any operation. -/
def Obj.calOp (L : Lib) (o : CalObj) : CalOp → Except PyErr CalObj
  | .edit e => o.calEdit L e
  | .times list i cs =>
    match o.get list.attr with
    | .many l =>
      match l[i]? with
      | some (.comp m) => do
        let m ← m.timeEdits L cs
        .ok { o with attrs := dictSet o.attrs list.attr (.many (l.set i (.comp m))) }
      | some _ => .error .attributeError
      | none => .error .indexError
    | _ => .error .typeError
  | .normalize n => o.normalizeCalendar L n
  | .copy list i =>
    match o.get list.attr with
    | .many l =>
      match l[i]? with
      | some (.comp m) => do
        let c ← m.clone L
        .ok { o with attrs := dictSet o.attrs list.attr (.many (l ++ [.comp c])) }
      | some _ => .error .attributeError
      | none => .error .indexError
    | _ => .error .typeError
  | .extra place items => o.putExtra place items
  | .strip place a => o.stripAt place a

/-- Several operations, one after the other, all of which succeed (/repo/src/ics/icalendar.py:27-32, 132-145). -/
def Obj.calOps (L : Lib) (o : CalObj) : List CalOp → Except PyErr CalObj
  | [] => .ok o
  | p :: rest => o.calOp L p >>= fun o => o.calOps L rest

end Ics
