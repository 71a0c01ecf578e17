import Verif.Spec.Represent
import Verif.Model.Assign

/-
Components that are changed after they were read.
-/
namespace Ics

/-- The attributes that a change is about. -/
def Change.attr {σ : Type} : Change σ → Str
  | .assign a _ => a
  | .addAttendee _ => "attendees".toList

/-- The attribute that a converter is about. -/
def Conv.Of (a : Str) : Conv → Prop
  | .value s => s.attr = a
  | .member b _ => b = a
  | .timespan => "timespan".toList = a
  | _ => False

/-- What an attribute may be changed to so that the component still survives: a value of one of the types of the
attribute that survives; nothing, if nothing is known about parameters and the attribute is not needed; a list, if nothing
is known about parameters, of values each of which survives on a line of its own; members that survive, as `M` says; a
time span that survives. -/
def Lasting {σ : Type} (L : Lib) (zones : List (Str × Nat)) (M : Str → σ → Prop) (o : Obj σ) : Conv → Prop
  | .value s =>
    if s.multi then
      dictGet? o.extraParams (upper s.attr) = none ∧
        ∃ l, o.get s.attr = .many l ∧ ∀ v ∈ l, RepGroup L zones s [] [v]
    else
      match o.get s.attr with
      | .none => dictGet? o.extraParams (upper s.attr) = none ∧
          s.attr ∉ ["uid", "dtstamp", "version", "prodid"].map String.toList
      | .one v => ∃ c, s.convs.find? (fun c => c.accepts v) = some c ∧ RepVal L zones c v ∧
          s.check.run L (.one v) = .ok (.one v)
      | .many _ => False
  | .member a _ => ∃ ms : List σ, o.get a = .many (ms.map .comp) ∧ ∀ m ∈ ms, M a m
  | .timespan => ∃ s, RepSpan L zones o s
  | _ => True

/-- An event or todo after changes to the attributes `as`, each of which has a value that lasts at the end. -/
def LastingEntry (L : Lib) (zones : List (Str × Nat)) (m : EntryObj) (as : List Str) : Prop :=
  ∀ a ∈ as, ∀ cv ∈ m.cls.convs, cv.Of a → Lasting L zones (fun _ => RepAlarm L zones) m cv

end Ics
