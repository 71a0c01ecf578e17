import Mathlib.Data.List.Forall2
import Verif.Model.Registry

/-
What the converters of a class should be.
-/
namespace Ics

/-- The class of a component. -/
def Cls.typeName : Cls → TypeName
  | .calendar => .calendar
  | .event => .event
  | .todo => .todo
  | .audioAlarm => .audioAlarm
  | .customAlarm => .customAlarm
  | .displayAlarm => .displayAlarm
  | .emailAlarm => .emailAlarm
  | .noneAlarm => .noneAlarm

/-- A converter that was found is the one that the model of components uses: for the same attribute and the
same line name, with the same value types in the same order, equally required, a list or not, with the same
check. -/
def SameConverter (d : Derived) (cv : Conv) : Prop :=
  match d.kind, cv with
  | .value cs, .value s => d.attr = s.attr ∧ d.ics = s.ics ∧ d.multi = s.multi ∧ d.required = s.required ∧
      cs.map (fun c => c.icsType.toList) = s.convs.map ValConv.icsType ∧ d.check = s.check
  | .member n, .member a n' => d.attr = a ∧ n = n' ∧ d.multi = true
  | .timespan, .timespan => d.attr = "timespan".toList ∧ d.multi = false
  | .alarmAction, .alarmAction => True
  | .calendarTimezone, .calendarTimezone => True
  | _, _ => False

instance (d : Derived) (cv : Conv) : Decidable (SameConverter d cv) := by
  unfold SameConverter
  split <;> infer_instance

/-- The attributes that get a converter: all but those marked with `ics_ignore` and those that are not
arguments of `__init__` and not marked as not ignored. -/
def Converted (a : AttrDecl) : Prop := a.ignore = some false ∨ (a.ignore = none ∧ a.init = true)

instance : DecidablePred Converted := fun a => by
  unfold Converted
  infer_instance

/-- A class that has some converter. -/
def Registry.Has (r : Registry) (t : TypeName) : Prop :=
  (dictGet? r.metas t).isSome ∨ (dictGet? r.attrs t).isSome ∨ (dictGet? r.values t).isSome

/-- The attribute, the names of the lines or containers, the value types, and whether it is a list and required. -/
structure Summary where
  attr : Str
  names : List Str
  types : Option (List String)
  multi : Bool
  required : Bool
  deriving DecidableEq

/-- See `Summary`. -/
def Derived.summary (d : Derived) : Summary :=
  ⟨d.attr, d.names, match d.kind with | .value cs => some (cs.map VConv.icsType) | _ => none, d.multi, d.required⟩

end Ics
