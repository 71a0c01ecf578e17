import Verif.Spec.Represent
import Verif.Model.CalendarTimeline

/-
What it means that two timelines give the same answers.
-/
namespace Ics

/-- The same event: the same time, summary and number; any two zone objects for UTC count as the same. -/
structure SameEvent (L : Lib) (a b : TEvent) : Prop where
  cls : a.entry.tsType = b.entry.tsType
  span : SameSpan L a.entry.timespan b.entry.timespan
  summary : a.entry.summary = b.entry.summary
  rest : a.rest = b.rest

/-- The same answer: the same exception, or the same events in the same order. -/
inductive SameAnswer (L : Lib) : Except PyErr (List TEvent) → Except PyErr (List TEvent) → Prop
  | error (x : PyErr) : SameAnswer L (.error x) (.error x)
  | ok {l m : List TEvent} : List.Forall₂ (SameEvent L) l m → SameAnswer L (.ok l) (.ok m)

/-- The timelines of two lists of events give the same answers to every query. -/
structure SameTimeline (L : Lib) (k : Nat) (evs evs' : List TEvent) : Prop where
  all : SameAnswer L (L.toEnv.timeline k none evs) (L.toEnv.timeline k none evs')
  included : ∀ q, SameAnswer L (L.toEnv.included k none evs q) (L.toEnv.included k none evs' q)
  overlapping : ∀ q, SameAnswer L (L.toEnv.overlapping k none evs q) (L.toEnv.overlapping k none evs' q)
  startAfter : ∀ d, SameAnswer L (L.toEnv.startAfter k none evs d) (L.toEnv.startAfter k none evs' d)
  at_ : ∀ d, SameAnswer L (L.toEnv.at k none evs d) (L.toEnv.at k none evs' d)
  on : ∀ d strict, SameAnswer L (L.toEnv.on k none evs d strict) (L.toEnv.on k none evs' d strict)
  today : ∀ w strict, SameAnswer L (L.toEnv.today k none evs w strict) (L.toEnv.today k none evs' w strict)
  now : ∀ w, SameAnswer L (L.toEnv.now k none evs w) (L.toEnv.now k none evs' w)

end Ics
