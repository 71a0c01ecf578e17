import Verif.Model.Timezone

/-
What the offset of a VTIMEZONE should be.
-/
namespace Ics

/-- `x` is an onset of the observance that has been reached when the clock shows `wall`: it is at or
before it; or the clock shows this time for the second time (`fold`), the observance turns the clock
back by `offsetFrom - offsetTo`, and the clock had shown `x` before it was turned back. -/
def Observance.Reached (o : Observance) (wall : Int) (fold : Bool) (x : Int) : Prop :=
  o.rule.occurs x ∧
    (x ≤ wall ∨ fold = true ∧ o.offsetTo < o.offsetFrom ∧ x ≤ wall + (o.offsetFrom - o.offsetTo))

/-- `o` is the observance in force: of all onsets that have been reached it has the latest one; if
several observances have that onset, `o` is the first of them. -/
def InForce (obs : List Observance) (wall : Int) (fold : Bool) (o : Observance) : Prop :=
  ∃ (i : Nat) (x : Int), obs[i]? = some o ∧ o.Reached wall fold x ∧
    ∀ (j : Nat) (o' : Observance) (y : Int), obs[j]? = some o' → o'.Reached wall fold y →
      y < x ∨ y = x ∧ i ≤ j

/-- No onset has been reached. -/
def BeforeAll (obs : List Observance) (wall : Int) (fold : Bool) : Prop :=
  ∀ o ∈ obs, ∀ x, ¬ o.Reached wall fold x

/-- `o` is the first standard observance, or the first one if there is no standard one. -/
def IsDefault (obs : List Observance) (o : Observance) : Prop :=
  (∃ i : Nat, obs[i]? = some o ∧ o.isDst = false ∧
    ∀ j < i, ∀ o', obs[j]? = some o' → o'.isDst = true) ∨
  ((∀ o' ∈ obs, o'.isDst = true) ∧ obs[0]? = some o)

/-- The answers an observance gives: the offset it leads to, the amount by which daylight saving time
differs from the time before it (zero for standard time), and its name. -/
def Answers (o : Observance) : TzQuery → TzAnswer → Prop
  | .utcoffset, a => a = .delta o.offsetTo
  | .dst, a => a = .delta (if o.isDst then o.offsetTo - o.offsetFrom else 0)
  | .tzname, a => a = .name o.tzname

end Ics
