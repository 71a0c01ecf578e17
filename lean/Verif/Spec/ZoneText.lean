import Verif.Spec.Vtimezone
import Verif.Spec.Writable

/-
Time zones as text, and calendars with such time zones.
-/
namespace Ics

/-- An observance without quotation marks around parameter values. -/
def unquoteObs (o : ObsObj) : ObsObj :=
  { o with extra := Item.unquotes o.extra, extraParams := o.extraParams.map fun kv => (kv.1, kv.2.unquote) }

/-- A time zone without quotation marks around parameter values. -/
def unquoteTz (z : TzObj) : TzObj :=
  { z with
    observances := z.observances.map unquoteObs
    extra := Item.unquotes z.extra
    extraParams := z.extraParams.map fun kv => (kv.1, kv.2.unquote) }

/-- The zones are equal in Python, if `f` is applied to the rules of the first: quotation marks and the order
of dictionaries do not matter. -/
def EqTz (f : RuleSet → RuleSet) (a b : TzObj) : Prop := SameTz f (unquoteTz a) (unquoteTz b)

/-- Parameters and unknown items that can be written as text. -/
structure WritableRest (extra : List Item) (params : List (Str × ExtraVal)) : Prop where
  extra : WritableTrees extra
  params : ∀ k p, dictGet? params k = some (.one p) → WritableParams p

/-- A time zone of which all parts that are not escaped can be written as text. -/
structure WritableTz (z : TzObj) : Prop where
  rest : WritableRest z.extra z.extraParams
  url : ∀ u, z.tzurl = some u → NoBreak u.geturl
  observances : ∀ o ∈ z.observances, WritableRest o.extra o.extraParams

/-- The zones `n` of the environment `L` are the time zone objects `zone n`: they have their names, they are
written and read as these objects are, where reading an object that is equal to the object of a zone in
`zs`, up to what dateutil makes of its rules, is the same as reading that zone. -/
structure ZoneLib (L : Lib) (w : Wrap) (R : RRuleStr) (f : RuleSet → RuleSet) (zs : List (Str × Nat)) (zone : Nat → TzObj)
    (intern : TzObj → Nat) : Prop where
  tzid : ∀ n, L.tzid n = (zone n).tzid
  dump : ∀ n, L.tzDump n = dumpTimezone L (zone n)
  load : ∀ items, L.tzLoad items = (loadTimezone L w R items).map intern
  same : ∀ name n, dictGet? zs name = some n → ∀ z, EqTz f (zone n) z → intern z = n

end Ics
