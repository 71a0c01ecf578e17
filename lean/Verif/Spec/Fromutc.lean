import Verif.Spec.Timezone

/-
Which observance a time zone is in at an instant (RFC 5545, 3.6.5: onsets are local times, to be read
with the offset in use before the onset).
-/
namespace Ics

/-- At the instant `u` (in UTC) the change to `o` on the local time `x` has happened: the clock that was
in use before it has shown `x`. -/
def Observance.Happened (o : Observance) (u x : Int) : Prop := o.rule.occurs x ∧ x - o.offsetFrom ≤ u

/-- The change to `o` at its onset `x` is the last one that has happened. -/
def LastChange (obs : List Observance) (u : Int) (o : Observance) (x : Int) : Prop :=
  o ∈ obs ∧ o.Happened u x ∧ ∀ o' ∈ obs, ∀ y, o'.Happened u y →
    y - o'.offsetFrom < x - o.offsetFrom ∨ y - o'.offsetFrom = x - o.offsetFrom ∧ o' = o

/-- The observance of the zone at the instant `u`: that of the last change; before the first change the
first standard one. -/
def Current (obs : List Observance) (u : Int) (o : Observance) : Prop :=
  (∃ x, LastChange obs u o x) ∨ (∀ o' ∈ obs, ∀ x, ¬ o'.Happened u x) ∧ IsDefault obs o

/-- The offset of standard time according to an observance: daylight saving time is what is added to the
offset before it. -/
def Observance.standard (o : Observance) : Int := if o.isDst then o.offsetFrom else o.offsetTo

/-- A clock `c` ahead of UTC has reached the same onsets as have happened.  (Around a change
this does not hold for both clocks.) -/
def InStep (obs : List Observance) (u c : Int) : Prop :=
  ∀ o ∈ obs, ∀ y, o.rule.occurs y → (y ≤ u + c ↔ y - o.offsetFrom ≤ u)

/-- Changes happen in the order of their onsets. -/
def InOrder (obs : List Observance) : Prop :=
  ∀ o ∈ obs, ∀ o' ∈ obs, ∀ x y, o.rule.occurs x → o'.rule.occurs y → x ≤ y →
    x - o.offsetFrom ≤ y - o'.offsetFrom

/-- Offsets of less than a day, for this observance. -/
def Observance.Small (o : Observance) : Prop :=
  -dayUs < o.offsetTo ∧ o.offsetTo < dayUs ∧ -dayUs < o.offsetTo - o.offsetFrom ∧
    o.offsetTo - o.offsetFrom < dayUs

end Ics
