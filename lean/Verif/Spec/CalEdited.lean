import Verif.Spec.Edited
import Verif.Spec.Writable
import Verif.Model.CalEdit

/-
Calendars that are changed after they were read.
-/
namespace Ics

/-- The value of an attribute that can be written as text. -/
def WritableAttr {σ : Type} (L : Lib) (M : σ → Prop) : AttrVal σ → Prop
  | .none => True
  | .one v => WritableVal L M v
  | .many l => ∀ v ∈ l, WritableVal L M v

/-- The class of what a list of a calendar has. -/
def CalList.cls : CalList → Cls
  | .events => .event
  | .todos => .todo

/-- A step after which the calendar `o1` still survives: the new value of an attribute lasts; the new values of the
attributes of an event or todo last; what is appended survives and is an event in the list of events, a todo in the list
of todos.  All new values can be written as text.  Anything may be deleted. -/
def LastingEdit (L : Lib) (zones : List (Str × Nat)) (o1 : CalObj) : CalEdit → Prop
  | .assign a _ =>
    (∀ cv ∈ Cls.calendar.convs, cv.Of a → Lasting L zones (fun a m => RepEntry L zones m ∧
      m.cls = if a = "events".toList then .event else .todo) o1 cv) ∧ WritableAttr L (WritableEntry L) (o1.get a)
  | .change list i chs => ∀ l m, o1.get list.attr = .many l → l[i]? = some (.comp m) →
    LastingEntry L zones m (chs.map Change.attr) ∧ ∀ ch ∈ chs, WritableAttr L (WritableAlarm L) (m.get ch.attr)
  | .append list m => RepEntry L zones m ∧ m.cls = list.cls ∧ WritableEntry L m
  | .delete _ _ => True

/-- Steps that succeed one after the other, after each of which the calendar still survives. -/
def LastingEdits (L : Lib) (zones : List (Str × Nat)) (o : CalObj) : List CalEdit → Prop
  | [] => True
  | e :: rest => ∃ o1, o.calEdit L e = .ok o1 ∧ LastingEdit L zones o1 e ∧ LastingEdits L zones o1 rest

end Ics
