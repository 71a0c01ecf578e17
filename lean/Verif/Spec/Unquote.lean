import Verif.Spec.Represent
import Verif.Spec.Contentline

/-
Components up to quotation marks of parameter values.  Whether a parameter value was quoted is the one
thing that is not kept when a line is written (values are quoted when they need to be, see C01); two values
that differ only in that are equal in Python (`UserString.__eq__`).
-/
namespace Ics

/-- All values unquoted. -/
def unquoteParams (p : Params) : Params := p.map fun kv => (kv.1, kv.2.map fun v => ⟨false, v.text⟩)

/-- A value without quotation marks; `f` does the same for a member. -/
def Val.unquote {σ : Type} (f : σ → σ) : Val σ → Val σ
  | .person a e x => .person a e (unquoteParams x)
  | .comp m => .comp (f m)
  | v => v

/-- The value of an attribute without quotation marks. -/
def AttrVal.unquote {σ : Type} (f : σ → σ) : AttrVal σ → AttrVal σ
  | .none => .none
  | .one v => .one (v.unquote f)
  | .many l => .many (l.map (Val.unquote f))

/-- Parameters without quotation marks. -/
def ExtraVal.unquote : ExtraVal → ExtraVal
  | .one p => .one (unquoteParams p)
  | .many ps => .many (ps.map unquoteParams)

/-- A component without quotation marks. -/
def Obj.unquote {σ : Type} (f : σ → σ) (o : Obj σ) : Obj σ where
  cls := o.cls
  attrs := o.attrs.map fun kv => (kv.1, kv.2.unquote f)
  extraName := o.extraName
  extra := Item.unquotes o.extra
  extraParams := o.extraParams.map fun kv => (kv.1, kv.2.unquote)

/-- An alarm without quotation marks. -/
def unquoteAlarm (o : Alarm) : Alarm := o.unquote id

/-- An event or todo without quotation marks. -/
def unquoteEntry (o : EntryObj) : EntryObj := o.unquote unquoteAlarm

/-- A calendar without quotation marks. -/
def unquoteCalendar (o : CalObj) : CalObj := o.unquote unquoteEntry

end Ics
