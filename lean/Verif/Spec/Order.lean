import Verif.Spec.Zones
import Verif.Model.Entry

/-
When times and spans come before one another, written down without the comparison code.
-/
namespace Ics

/-- The aware time a naive one stands for: local time (in the zone object 0 of local time). -/
def Env.localize (e : Env) (d : DT) : DT :=
  match d.tz with
  | none => ⟨(e.locFromUtc (e.instant d)).1, (e.locFromUtc (e.instant d)).2, some (.loc 0)⟩
  | some _ => d

/-- A naive time can be converted to local time without leaving the range of `datetime`. -/
def Env.Convertible (e : Env) (d : DT) : Prop :=
  d.tz = none → (0 ≤ e.instant d ∧ e.instant d < maxWall) ∧ (e.localize d).InRange

/-- All objects `tzlocal()` in `d` are older than number `k`. -/
def DT.Fresh (k : Nat) (d : DT) : Prop := ∀ i, d.tz = some (.loc i) → i < k

/-- All objects `tzlocal()` in `s` are older than number `k`; so every one created by a comparison
is a new one. -/
def Span.Fresh (k : Nat) (s : Span) : Prop :=
  (∀ b, s.begin? = some b → b.Fresh k) ∧ ∀ en, s.end? = some en → en.Fresh k

/-- The time does not fall into a gap or an overlap of its zone. -/
def Env.Unambiguous (e : Env) (d : DT) : Prop :=
  ∀ t, (e.localize d).tz = some t →
    e.tzOff t (e.localize d).wall true = e.tzOff t (e.localize d).wall false

/-- The times are unambiguous, and times with the same zone object are ordered by their wall clocks as
by their instants. -/
def Env.Tidy (e : Env) (T : DT → Prop) : Prop :=
  (∀ d, T d → e.Unambiguous d) ∧
  ∀ x y, T x → T y → x.tz = y.tz → x.tz ≠ none →
    ((x.wall < y.wall ↔ e.instant x < e.instant y) ∧ (x.wall = y.wall ↔ e.instant x = e.instant y))

/-- The times that matter for comparing `s`: its begin and effective end, and 1900-01-01 if one of
them is missing. -/
def Env.timesOf (e : Env) (s : Span) (d : DT) : Prop :=
  d = s.begin?.getD ⟨693595 * 86400000000, false, none⟩ ∨
  ∃ en, e.effEnd s = .ok en ∧ d = en.getD ⟨693595 * 86400000000, false, none⟩

/-- The times of `s` exist and can be converted to local time: comparisons cannot overflow. -/
def Env.Sortable (e : Env) (s : Span) : Prop :=
  (∃ en, e.effEnd s = .ok en) ∧ ∀ d, e.timesOf s d → e.Convertible d

/-- The instants by which spans are sorted: begin and effective end for events, due and begin for
todos; 1900-01-01 in place of a missing one. -/
def Env.SortKey (e : Env) (s : Span) (x y : Int) : Prop :=
  ∃ en, e.effEnd s = .ok en ∧
    let b := e.instant (s.begin?.getD ⟨693595 * 86400000000, false, none⟩)
    let n := e.instant (en.getD ⟨693595 * 86400000000, false, none⟩)
    if s.cls = .todo then x = n ∧ y = b else x = b ∧ y = n

/-- The instant `t` belongs to the span from `b` to `en` (the end is excluded). -/
def During (b en t : Int) : Prop := b ≤ t ∧ t < en

/-- `s` is an event span (or a plain one) from `b` to `en` that can be compared. -/
def Env.Timed (e : Env) (s : Span) (b en : DT) : Prop :=
  s.cls ≠ .todo ∧ s.begin? = some b ∧ e.effEnd s = .ok (some en) ∧ e.Convertible b ∧ e.Convertible en

end Ics
