import Verif.Model.Clone

/-
Which lists a component and its clone have in common.  Lists are objects with an identity here, values are not: the
elements of the lists (attendees, alarms, events) are the same objects in both, as the copy is said to be shallow
(/repo/src/ics/component.py:97-98).
-/
namespace Ics

/-- The lists that there are, by identity; those from `next` on are still to be made (the attributes with `List` in
/repo/src/ics/event.py:69-70, 262-266, alarm.py:84-87, icalendar.py:27-32 have them as values). -/
structure Mem (α : Type) where
  next : Nat
  lists : Nat → List α

/-- The value of an attribute: a list, by identity, or anything else (/repo/src/ics/event.py:56-70, 253-266, todo.py:23-29,
alarm.py:34-87, icalendar.py:17-32). -/
inductive HField (α : Type) where
  | val (a : α)
  | list (id : Nat)
deriving DecidableEq, Repr

/-- A component with the identities of its lists (/repo/src/ics/event.py:56-70, 253-266, todo.py:23-29, alarm.py:34-87,
icalendar.py:17-32). -/
structure HComp (α : Type) where
  cls : Cls
  slots : Str → Option (HField α)

/-- Whether an attribute has `converter=list` (/repo/src/ics/event.py:69-70, 262-266, icalendar.py:27-32), which makes a new
list; the lists of e-mail alarms have not (alarm.py:84-87). -/
def Cls.copies (c : Cls) (k : Str) : Bool := c.attrChecks.any fun p => decide (p = (k, Check.list))

/-- The names of the attributes in order (attrs 22.1 `evolve`, _funcs.py:356-368; see `Cls.attrChecks` for
/repo/src/ics). -/
def Cls.attrNames (c : Cls) : List Str := c.attrChecks.map Prod.fst

/-- `Component.clone` (/repo/src/ics/component.py:96-99): `__init__` is called with all the attributes, and the converters make
new lists.  Identities are handed out by the position of the attribute. -/
def HComp.clone {α : Type} (m : Mem α) (c : HComp α) : HComp α × Mem α :=
  (⟨c.cls, fun k =>
      match c.slots k with
      | some (.list id) => if c.cls.copies k then some (.list (m.next + c.cls.attrNames.idxOf k)) else some (.list id)
      | x => x⟩,
    ⟨m.next + c.cls.attrNames.length, fun i =>
      if i < m.next then m.lists i
      else
        match c.cls.attrNames[i - m.next]? with
        | some k => match c.slots k with | some (.list id) => m.lists id | _ => []
        | none => []⟩)

/-- What is done to a component: a list is changed in place, by `append`, `del` or any other way (as in `add_attendee`,
/repo/src/ics/event.py:268-271, alarm.py:89-92); an attribute is assigned a value or a new list
(/repo/src/ics/types.py:126-140).  Simplified: values are such as the validators accept, and nothing else refers to a list
that is assigned. -/
inductive HOp (α : Type) where
  | mutate (k : Str) (f : List α → List α)
  | assign (k : Str) (a : α)
  | assignList (k : Str) (l : List α)

/-- Carries out an operation (/repo/src/ics/event.py:268-271, alarm.py:89-92, types.py:126-140). -/
def HComp.step {α : Type} (m : Mem α) (c : HComp α) : HOp α → Except PyErr (HComp α × Mem α)
  | .mutate k f =>
    match c.slots k with
    | some (.list id) => .ok (c, { m with lists := fun i => if i = id then f (m.lists id) else m.lists i })
    | _ => .error .attributeError
  | .assign k a =>
    match c.slots k with
    | some _ => .ok ({ c with slots := fun j => if j = k then some (.val a) else c.slots j }, m)
    | none => .error .attributeError
  | .assignList k l =>
    match c.slots k with
    | some _ => .ok ({ c with slots := fun j => if j = k then some (.list m.next) else c.slots j },
        ⟨m.next + 1, fun i => if i = m.next then l else m.lists i⟩)
    | none => .error .attributeError

/-- Operations on two components in any order, all of which succeed; `true` is for the second one
(/repo/src/ics/event.py:268-271, alarm.py:89-92, types.py:126-140). -/
def runBoth {α : Type} (m : Mem α) (c d : HComp α) : List (Bool × HOp α) → Except PyErr (Mem α × HComp α × HComp α)
  | [] => .ok (m, c, d)
  | (false, op) :: rest => c.step m op >>= fun r => runBoth r.2 r.1 d rest
  | (true, op) :: rest => d.step m op >>= fun r => runBoth r.2 c r.1 rest

end Ics
