import Verif.Spec.CalEdited
import Verif.Spec.CalNormalize
import Verif.Spec.TimeEdit
import Verif.Spec.Writable
import Verif.Spec.PutExtra
import Verif.Model.Session

/-
Sessions: a calendar is read, worked on, and written.
-/
namespace Ics

/-- An operation that leads from the calendar `o` to the calendar `o1`, which still survives: a change lasts; times are set to
whole seconds, and both before and after the event or todo has a begin or an end, settled, without parameters of what is no
longer there; all times are moved to a lawful zone that the reader knows and are then settled.  Anything may be cloned.  Unknown properties
can be written as text and are indeed unknown.  All parameters are stripped, or property merging is left alone. -/
def LastingOp (L : Lib) (zones : List (Str × Nat)) (o o1 : CalObj) : CalOp → Prop
  | .edit e => LastingEdit L zones o1 e
  | .times list i cs => (∀ c ∈ cs, LastingTime L zones c) ∧
    ∀ l l1 m m1, o.get list.attr = .many l → l[i]? = some (.comp m) → o1.get list.attr = .many l1 → l1[i]? = some (.comp m1) →
      ∃ s t, m.get "timespan".toList = .one (.span s) ∧ m1.get "timespan".toList = .one (.span t) ∧ s.Dated ∧ t.Dated ∧
        t.Settled L ∧ t.NoStale m
  | .normalize n => (∃ z, n.replacement = some (.zone z) ∧ L.Lawful (.zone z) ∧ RepZone L zones (some (.zone z))) ∧ Settled L o1
  | .copy _ _ => True
  | .extra place items => WritableTrees items ∧ ∀ i ∈ items, unhandled (placeCls place) i = true
  | .strip _ a => a.extraParams.getD a.allExtras = true ∨ a.propertyMerging.getD a.allExtras = false

/-- Operations that succeed one after the other, after each of which the calendar still survives. -/
def LastingOps (L : Lib) (zones : List (Str × Nat)) (o : CalObj) : List CalOp → Prop
  | [] => True
  | p :: rest => ∃ o1, o.calOp L p = .ok o1 ∧ LastingOp L zones o o1 p ∧ LastingOps L zones o1 rest

/-- What `strip_extras` leaves of a component. -/
def Stripped {σ : Type} (a : StripArgs) (o o1 : Obj σ) : Prop :=
  o1.cls = o.cls ∧ o1.extraName = o.extraName ∧ (∀ k, o1.get k = o.get k) ∧
    o1.extra = (if a.extraProperties.getD a.allExtras then [] else o.extra) ∧
    (a.extraParams.getD a.allExtras = true → o1.extraParams = []) ∧
    (a.extraParams.getD a.allExtras = false → a.propertyMerging.getD a.allExtras = false → o1.extraParams = o.extraParams)

end Ics
