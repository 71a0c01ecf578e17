import Verif.Model.Container

/-
What a container should do: behave like a list that refuses everything that is not an item.
-/
namespace Ics

/-- The corresponding operation on a plain Python list: the list afterwards and the result, or the
exception.  Deleting by name removes the elements with that name. -/
def ContOp.onList {α : Type} (I : ObjInfo α) (l : List α) : ContOp α → Except PyErr (List α × Option α)
  | .append x => .ok (l ++ [x], none)
  | .insert i x => (listInsert l i x).map fun l => (l, none)
  | .extend xs =>
    match xs.err with
    | none => .ok (l ++ xs.items, none)
    | some e => .error e
  | .setitem i v => (listSet l i v).map fun l => (l, none)
  | .delitem (.str name) => .ok (l.filter fun x => decide (I.name x ≠ .ok name), none)
  | .delitem i => (listDel l i).map fun l => (l, none)
  | .pop i => (listPop l i).map fun r => (r.1, some r.2)
  | .remove eq => (listRemove eq l).map fun l => (l, none)
  | .clear => .ok ([], none)
  | .reverse => .ok (l.reverse, none)

/-- Only content lines and containers. -/
def OnlyItems {α : Type} (I : ObjInfo α) (l : List α) : Prop := ∀ x ∈ l, I.isItem x = true

/-- The histories a well-behaved container may have, from one list of items to another: a successful call
does to the items, and returns, what the list operation does, and leaves only items; a raising call changes
nothing. -/
inductive Faithful {α : Type} (I : ObjInfo α) :
    List α → List (ContOp α × Except PyErr (Option α)) → List α → Prop
  | nil (l : List α) : OnlyItems I l → Faithful I l [] l
  | ok (l l' l'' : List α) (op : ContOp α) (r : Option α) (h : List (ContOp α × Except PyErr (Option α))) :
    OnlyItems I l → op.onList I l = .ok (l', r) → Faithful I l' h l'' → Faithful I l ((op, .ok r) :: h) l''
  | error (l l'' : List α) (op : ContOp α) (e : PyErr) (h : List (ContOp α × Except PyErr (Option α))) :
    OnlyItems I l → Faithful I l h l'' → Faithful I l ((op, .error e) :: h) l''

/-- The arguments of a call are proper, if an `extend` or an assignment is only given items, by an iterable
that does not raise.  All other calls are proper, whatever their arguments. -/
def ContOp.Proper {α : Type} (I : ObjInfo α) : ContOp α → Prop
  | .extend xs => xs.err = none ∧ OnlyItems I xs.items
  | .setitem (.int _) v => I.isItem v.value = true
  | .setitem (.slice _) v => OnlyItems I v.iter.items
  | _ => True

end Ics
