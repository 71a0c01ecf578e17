import Verif.Model.Lazy

/-
What one gets from a generator that is called again and again.
-/
namespace Ics

/-- The events at the first call. -/
def eventsAtStart : List TEvent → List Act → List TEvent
  | _, .assign events :: acts => eventsAtStart events acts
  | events, _ => events

/-- How often `next` is called. -/
def nextsIn (acts : List Act) : Nat :=
  acts.countP fun
    | .next => true
    | .assign _ => false

/-- `n` calls: first the values, then the exception if there is one, and then nothing more. -/
def outcomes {α : Type} (out : List α) (err : Option PyErr) (n : Nat) : List (Next α) :=
  let last : Next α := match err with
    | none => .stops
    | some x => .raises x
  (out.map Next.yields ++ last :: List.replicate n .stops).take n

/-- The values and the exception are what one gets from the generator: what matters are the events at the first call. -/
def Delivers {γ α : Type} (step : List TEvent → γ → Next α × γ) (start : γ) (events : List TEvent) (out : List α)
    (err : Option PyErr) : Prop :=
  ∀ now acts, eventsAtStart now acts = events → runGen step now start acts = outcomes out err (nextsIn acts)

/-- Going through the values `its`, after which comes `err`, and selecting some of them: what is selected, and the
exception. -/
inductive Picks (cond : TItem → Except PyErr Bool) : List TItem → Option PyErr → List TEvent → Option PyErr → Prop
  | done {err : Option PyErr} : Picks cond [] err [] err
  | take {it : TItem} {its : List TItem} {out : List TEvent} {err err' : Option PyErr} : cond it = .ok true →
      Picks cond its err out err' → Picks cond (it :: its) err (it.2 :: out) err'
  | skip {it : TItem} {its : List TItem} {out : List TEvent} {err err' : Option PyErr} : cond it = .ok false →
      Picks cond its err out err' → Picks cond (it :: its) err out err'
  | fail {it : TItem} {its : List TItem} {err : Option PyErr} {x : PyErr} : cond it = .error x →
      Picks cond (it :: its) err [] (some x)

end Ics
