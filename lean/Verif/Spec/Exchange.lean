import Verif.Model.Session

/-
Operations on one event or todo of a calendar.
-/
namespace Ics

/-- The place of the event or todo that an operation is about; none if it is about the calendar or one of its lists. -/
def CalOp.place : CalOp → Option (CalList × Nat)
  | .edit (.change list i _) => some (list, i)
  | .times list i _ => some (list, i)
  | .extra p _ => p
  | .strip p _ => p
  | _ => none

/-- Calendars that nothing that can be asked tells apart (the dictionary of attributes may have another order). -/
structure AlikeCalendar (a b : CalObj) : Prop where
  cls : a.cls = b.cls
  extraName : a.extraName = b.extraName
  extra : a.extra = b.extra
  extraParams : a.extraParams = b.extraParams
  attrs : ∀ k, a.get k = b.get k

end Ics
