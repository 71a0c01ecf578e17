import Verif.Spec.Represent
import Verif.Spec.Contentline

/-
Which components have only parts that can be written as text: whatever is written without being escaped
has no line breaks, and parameters are such as content lines can have (see `WritableLine`).
-/
namespace Ics

variable {σ : Type}

/-- Parameters that can be written: a dictionary with names without delimiters and line breaks; every
parameter has a value, of which the last is not empty or quoted, and none has a carriage return. -/
structure WritableParams (p : Params) : Prop where
  names : ∀ kv ∈ p, NoBreak kv.1 ∧ ∀ c ∈ kv.1, c ≠ '=' ∧ c ≠ ':' ∧ c ≠ ';'
  distinct : (p.map Prod.fst).Nodup
  vals : ∀ kv ∈ p, ∃ init last, kv.2 = init ++ [last] ∧ (last.quoted = true ∨ last.text ≠ [])
  nocr : ∀ kv ∈ p, ∀ v ∈ kv.2, '\r' ∉ v.text

/-- A time in a zone whose name can be written as a parameter. -/
def WritableTime (L : Lib) (d : DT) : Prop :=
  ∀ t z, d.tz = some t → L.conv t = .timezone z → L.tzid z ≠ [] ∧ '\r' ∉ L.tzid z

/-- A value that can be written; `M` says which members can. -/
def WritableVal (L : Lib) (M : σ → Prop) : Val σ → Prop
  | .url u => NoBreak u.geturl
  | .person _ e x => NoBreak (match e with | .str s => s | .url u => u.geturl) ∧ WritableParams x
  | .geo a b => NoBreak (L.formatFloat a) ∧ NoBreak (L.formatFloat b)
  | .dt d => WritableTime L d
  | .span s => (∀ d, s.begin? = some d → WritableTime L d) ∧ ∀ d, s.end? = some d → WritableTime L d
  | .comp m => M m
  | _ => True

/-- A component that can be written. -/
structure WritableObj (L : Lib) (M : σ → Prop) (o : Obj σ) : Prop where
  name : WritableName o.extraName
  extra : WritableTrees o.extra
  one : ∀ k v, o.get k = .one v → WritableVal L M v
  many : ∀ k l, o.get k = .many l → ∀ v ∈ l, WritableVal L M v
  params : ∀ k p, dictGet? o.extraParams k = some (.one p) → WritableParams p
  listParams : ∀ k ps, dictGet? o.extraParams k = some (.many ps) → ∀ p ∈ ps, WritableParams p

/-- An alarm that can be written; an action is not escaped. -/
def WritableAlarm (L : Lib) (o : Alarm) : Prop :=
  WritableObj L (fun _ => True) o ∧ ∀ a, o.get "_action".toList = .one (.text a) → NoBreak a

/-- An event or todo that can be written. -/
def WritableEntry (L : Lib) (o : EntryObj) : Prop :=
  (o.cls = .event ∨ o.cls = .todo) ∧ WritableObj L (WritableAlarm L) o

/-- A calendar that can be written. -/
def WritableCalendar (L : Lib) (o : CalObj) : Prop := WritableObj L (WritableEntry L) o

/-- A time zone survives as text: it can be written, and what was written is read as the same zone, whether
parameter values are quoted or not. -/
def ZoneTrip (L : Lib) (z : Nat) : Prop :=
  ∃ is, L.tzDump z = .ok (.cont "VTIMEZONE".toList is) ∧ WritableTree (.cont "VTIMEZONE".toList is) ∧
    ∀ is', Item.unquotes is' = Item.unquotes is → L.tzLoad is' = .ok z

end Ics
