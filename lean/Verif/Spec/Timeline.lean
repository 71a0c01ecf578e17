import Verif.Spec.Order
import Verif.Model.Timeline

/-
What the timeline and its queries should yield.
-/
namespace Ics

/-- The naive times are not in a gap or an overlap of local time. -/
def Env.NaiveClear (e : Env) (T : DT → Prop) : Prop :=
  ∀ d, T d → d.tz = none → e.sysOff d.wall true = e.sysOff d.wall false

/-- `r` consists of the events of the items that satisfy `P`, in the same order. -/
def Selects (its : List TItem) (r : List TEvent) (P : TItem → Prop) : Prop :=
  ∃ keep : TItem → Bool, (∀ it ∈ its, keep it = true ↔ P it) ∧ r = (its.filter keep).map Prod.snd

/-- The item takes place from the instant `b` to the instant `en`. -/
def Env.Takes (e : Env) (it : TItem) (b en : Int) : Prop :=
  ∃ x y, it.1.begin? = some x ∧ e.effEnd it.1 = .ok (some y) ∧ b = e.instant x ∧ en = e.instant y

/-- The times of all items belong to `T` and can be compared. -/
def Env.AllTimed (e : Env) (T : DT → Prop) (k : Nat) (its : List TItem) : Prop :=
  ∀ it ∈ its, it.1.Fresh k ∧ ∃ b en, e.Timed it.1 b en ∧ T b ∧ T en

end Ics
