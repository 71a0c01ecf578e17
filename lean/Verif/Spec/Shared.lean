import Verif.Model.Shared
import Verif.Spec.Represent

/-
Components as independent variables.
-/
namespace Ics

/-- What one sees of an attribute. -/
inductive Seen (α : Type) where
  | val (a : α)
  | list (l : List α)
deriving DecidableEq, Repr

/-- What one sees of a component. -/
def HComp.seen {α : Type} (c : HComp α) (m : Mem α) (k : Str) : Option (Seen α) :=
  match c.slots k with
  | some (.val a) => some (.val a)
  | some (.list id) => some (.list (m.lists id))
  | none => none

/-- What an operation should do to what one sees: it is about one attribute. -/
def HOp.on {α : Type} (s : Str → Option (Seen α)) : HOp α → Str → Option (Seen α)
  | .mutate k f => fun j => if j = k then (match s k with | some (.list l) => some (.list (f l)) | x => x) else s j
  | .assign k a => fun j => if j = k then some (.val a) else s j
  | .assignList k l => fun j => if j = k then some (.list l) else s j

/-- Several operations, those of the first (`false`) or of the second component. -/
def HOp.ons {α : Type} (b : Bool) (s : Str → Option (Seen α)) : List (Bool × HOp α) → Str → Option (Seen α)
  | [] => s
  | (x, op) :: rest => if x = b then HOp.ons b (HOp.on s op) rest else HOp.ons b s rest

/-- The lists of a component are there, each for one attribute, and those attributes are the ones that are lists. -/
structure HComp.Own {α : Type} (c : HComp α) (m : Mem α) : Prop where
  there : ∀ k id, c.slots k = some (.list id) → id < m.next
  distinct : ∀ k k' id, c.slots k = some (.list id) → c.slots k' = some (.list id) → k = k'
  lists : ∀ k id, c.slots k = some (.list id) → k ∈ (listAttrs c.cls ++ memberAttrs c.cls).map String.toList

end Ics
