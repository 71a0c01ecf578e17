import Verif.Spec.Survive

/-
Which events and todos survive being written and read.
-/
namespace Ics

variable {σ : Type}

/-- A component as the constructors make it, without extra parameters: values are such that Python can have them, the
validators accept them, the time span is valid, and no attendee has the parameter that the library uses for itself. -/
structure Made (L : Lib) (o : Obj σ) : Prop where
  params : o.extraParams = []
  one : ∀ s v, .value s ∈ o.cls.convs → o.get s.attr = .one v → PyVal v ∧ s.check.run L (.one v) = .ok (.one v)
  many : ∀ s l, .value s ∈ o.cls.convs → o.get s.attr = .many l → ∀ v ∈ l, PyVal v ∧
    ∀ att e extra, v = .person att e extra → "__merge_next".toList ∉ extra.map Prod.fst
  span : ∀ s, o.get "timespan".toList = .one (.span s) → PyVal (σ := σ) (.span s) ∧ L.validate s = .ok () ∧
    ∀ us, s.dur? = some us → tdMin ≤ us ∧ us ≤ tdMax

/-- An event or todo as the constructors make it. -/
def MadeEntry (L : Lib) (o : EntryObj) : Prop :=
  (o.cls = .event ∨ o.cls = .todo) ∧ Made L o ∧ ∀ ms : List Alarm, o.get "alarms".toList = .many (ms.map .comp) →
    ∀ m ∈ ms, m.cls ∈ [Cls.audioAlarm, .customAlarm, .displayAlarm, .emailAlarm, .noneAlarm] ∧ Made L m

/-- A component of which everything survives; `M` says which members do. -/
structure KeptObj (L : Lib) (zones : List (Str × Nat)) (M : σ → Prop) (o : Obj σ) : Prop where
  name : o.extraName = o.cls.icsName
  extra : ∀ i ∈ o.extra, unhandled o.cls i = true
  single : ∀ s, .value s ∈ o.cls.convs → s.multi = false → KeptSingle L zones o s
  multi : ∀ s, .value s ∈ o.cls.convs → s.multi = true → KeptList L zones o s
  members : ∀ a n, .member a n ∈ o.cls.convs → ∃ ms : List σ, o.get a = .many (ms.map .comp) ∧ ∀ m ∈ ms, M m
  time : .timespan ∈ o.cls.convs → ∃ s, o.get "timespan".toList = .one (.span s) ∧ KeptSpan L zones o s

/-- An alarm of which everything survives; it has one of the four standard classes. -/
def KeptAlarm (L : Lib) (zones : List (Str × Nat)) (o : Alarm) : Prop :=
  o.cls ≠ .customAlarm ∧ KeptObj L zones (fun _ => False) o

/-- An event or todo of which everything survives. -/
def KeptEntry (L : Lib) (zones : List (Str × Nat)) (o : EntryObj) : Prop := KeptObj L zones (KeptAlarm L zones) o

/-- The event or todo is written, and what is written is read, by a reader who knows the zones, as the same. -/
def Survived (L : Lib) (zones : List (Str × Nat)) (o : EntryObj) : Prop :=
  ∃ name items st o' ctx, dumpEntry L o { ctx := some [] } = .ok (.cont name items, st) ∧
    loadEntry L o.cls items (some zones) = .ok (o', ctx) ∧ SameEntry L o o'

/-- A calendar as the constructors make it: events are events, and todos are todos. -/
def MadeCalendar (L : Lib) (o : CalObj) : Prop :=
  o.cls = .calendar ∧ Made L o ∧ ∀ a c, (a, c) ∈ [("events", Cls.event), ("todos", Cls.todo)] →
    ∀ ms : List EntryObj, o.get a.toList = .many (ms.map .comp) → ∀ m ∈ ms, m.cls = c ∧ MadeEntry L m

/-- A calendar of which everything survives: zones can be assigned to names so that a reader who knows these zones gets
everything as it was. -/
def KeptCalendar (L : Lib) (o : CalObj) : Prop := ∃ zones, KeptObj L zones (KeptEntry L zones) o

/-- The calendar is written, and what is written is read as the same. -/
def SurvivedCalendar (L : Lib) (o : CalObj) : Prop :=
  ∃ name items o', dumpCalendar L o = .ok (.cont name items) ∧ loadCalendar L items = .ok o' ∧ SameCalendar L o o'

end Ics
