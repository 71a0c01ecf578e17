import Verif.Spec.Faults
import Verif.Spec.Timespan

/-
What the lines of a calendar say about the times of its events and todos.
-/
namespace Ics

/-- The first time zone of that name among the items of a calendar. -/
def OwnZone (L : Lib) (cal : List Item) (name : Str) (z : Nat) : Prop :=
  ∃ before is after, cal = before ++ .cont "VTIMEZONE".toList is :: after ∧ L.tzLoad is = .ok z ∧ L.tzid z = name ∧
    ∀ is' z', .cont "VTIMEZONE".toList is' ∈ before → L.tzLoad is' = .ok z' → L.tzid z' ≠ name

/-- The zone that a TZID stands for in a calendar: its own one of that name, otherwise the one that is known by that name to
the library, otherwise to dateutil. -/
inductive TzidMeans (L : Lib) (cal : List Item) (name : Str) (z : Nat) : Prop
  | own : OwnZone L cal name z → TzidMeans L cal name z
  | library : (∀ z', ¬ OwnZone L cal name z') → L.fromTzid name = some z → TzidMeans L cal name z
  | dateutil : (∀ z', ¬ OwnZone L cal name z') → L.fromTzid name = none → L.gettz name = some z → TzidMeans L cal name z

/-- No `TZID`, or an empty one. -/
def Unzoned (cl : ContentLine) : Prop :=
  dictGet? cl.params "TZID".toList = none ∨ dictGet? cl.params "TZID".toList = some [] ∨
    ∃ q, dictGet? cl.params "TZID".toList = some [⟨q, []⟩]

/-- The time that a line DTSTART, DTEND or DUE says and its precision, where `Z` says for which zone a `TZID` stands and
`utc` is the zone UTC. -/
inductive SaysTime (Z : Str → Nat → Prop) (utc : Nat) (cl : ContentLine) : DT → Precision → Prop
  /-- A date: the midnight it begins with, without a zone. -/
  | date {y m d : Nat} : IsDate cl → DateTimeText (stripped cl.value) y m d 0 0 0 → (stripped cl.value).length ≤ 8 →
      SaysTime Z utc cl ⟨clock y m d 0 0 0, false, none⟩ .day
  /-- With a `Z` at the end. -/
  | utc {y m d h n s : Nat} : ¬ IsDate cl → DateTimeText (stripped cl.value) y m d h n s → EndsInZ cl.value →
      SaysTime Z utc cl ⟨clock y m d h n s, false, some (.zone utc)⟩ .second
  /-- With a `TZID`. -/
  | zoned {y m d h n s z : Nat} {v : PVal} : ¬ IsDate cl → DateTimeText (stripped cl.value) y m d h n s →
      ¬ EndsInZ cl.value → dictGet? cl.params "TZID".toList = some [v] → v.text ≠ [] → Z v.text z →
      SaysTime Z utc cl ⟨clock y m d h n s, false, some (.zone z)⟩ .second
  /-- Otherwise without a zone. -/
  | floating {y m d h n s : Nat} : ¬ IsDate cl → DateTimeText (stripped cl.value) y m d h n s → ¬ EndsInZ cl.value →
      Unzoned cl → SaysTime Z utc cl ⟨clock y m d h n s, false, none⟩ .second

/-- The name of the line that gives the end. -/
def endLine : SpanCls → Str
  | .todo => "DUE".toList
  | _ => "DTEND".toList

/-- The time of an event or todo is the one that its lines give, one line for each of begin, end and duration. -/
structure TimeSaid (Z : Str → Nat → Prop) (utc : Nat) (items : List Item) (s : Span) : Prop where
  /-- The begin is what the line DTSTART says. -/
  «begin» : ∀ d, s.begin? = some d ↔
    ∃ cl p, .line cl ∈ items ∧ cl.name = "DTSTART".toList ∧ SaysTime Z utc cl d p
  /-- The end is what the last line DTEND or DUE says. -/
  «end» : ∀ d, s.end? = some d ↔ ∃ cl p, LastEnd items cl ∧ SaysTime Z utc cl d p
  /-- That is DTEND for events and DUE for todos. -/
  endName : ∀ cl, LastEnd items cl → cl.name = endLine s.cls
  /-- The duration is what the line DURATION says. -/
  duration : ∀ us, s.dur? = some us ↔
    ∃ cl v, .line cl ∈ items ∧ cl.name = "DURATION".toList ∧ LooseDuration cl.value v ∧ us = v * 1000000
  /-- All lines DTSTART, DTEND and DUE have one precision, and that is the precision. -/
  precision : ∀ cl d p, .line cl ∈ items → cl.name = "DTSTART".toList ∨ IsEnd cl → SaysTime Z utc cl d p → s.prec = p
  /-- Without such a line there is none, which the model writes as `.other []`. -/
  noTime : (∀ cl, .line cl ∈ items → ¬ (cl.name = "DTSTART".toList ∨ IsEnd cl)) → s.prec = .other []
  /-- No name occurs twice. -/
  once : ∀ n ∈ ["DTSTART", "DTEND", "DUE", "DURATION"].map String.toList, (items.filter fun i => i.name = n).length ≤ 1
  /-- Every such line says something. -/
  all : ∀ cl, .line cl ∈ items → cl.name = "DTSTART".toList ∨ IsEnd cl → ∃ d p, SaysTime Z utc cl d p

/-- The event or todo `o` was read from the component `i`, called `name`, of the calendar `cal`: its time is valid and is the
one that its lines say. -/
def ReadFrom (L : Lib) (cal : List Item) (name : Str) (cls : SpanCls) (i : Item) (o : EntryObj) : Prop :=
  ∃ is s, i = .cont name is ∧ o.get "timespan".toList = .one (.span s) ∧ s.cls = cls ∧ WellFormed L.toEnv s ∧
    TimeSaid (TzidMeans L cal) L.utc is s

/-- Has the component a line DTSTART? -/
def starts : Item → Bool
  | .cont _ is => is.any fun
    | .line cl => cl.name = "DTSTART".toList
    | .cont _ _ => false
  | .line _ => false

end Ics
