import Verif.Model.Component

/-
Copying: `Component.clone` (/repo/src/ics/component.py:96-99), `Container.clone` and `ContentLine.clone`
(/repo/src/ics/contentline/container.py:200-202, 260-266).
-/
namespace Ics

/-- The attrs fields an attribute converter stands for, with converter and validator
(/repo/src/ics/converter/base.py:110; event.py:56-85, 253-266, todo.py:23-29, alarm.py:34-97,
icalendar.py:17-32). -/
def Conv.attrChecks (c : Cls) : Conv → List (Str × Check)
  | .value s => [(s.attr, s.check)]
  | .member attr _ => [(attr, .list)]
  | .timespan => [("timespan".toList, .timespan c.spanCls)]
  | .alarmAction => []
  | .calendarTimezone => []

/-- The attrs fields of a class that are arguments of `__init__`, in order (see `Conv.attrChecks`;
/repo/src/ics/component.py:18-26 are not arguments). -/
def Cls.attrChecks (c : Cls) : List (Str × Check) := c.convs.flatMap (Conv.attrChecks c)

/-- `cls(**changes)` with all the attributes of a component (attrs 22.1 `evolve`, _funcs.py:356-368;
/repo/src/ics/event.py:289-317, todo.py:42-62, icalendar.py:51-76).  Simplified: attrs runs all the
converters before the validators, so that another of several errors may come first. -/
def cloneAttrs {σ : Type} (L : Lib) (o : Obj σ) : List (Str × Check) → Except PyErr (List (Str × AttrVal σ))
  | [] => .ok []
  | (attr, check) :: rest => do
    let v ← check.run L (o.get attr)
    let vs ← cloneAttrs L o rest
    .ok ((attr, v) :: vs)

/-- `Component.clone` (/repo/src/ics/component.py:96-99, 28-30): `extra` and `extra_params` are not
arguments of `__init__` (component.py:18-26), the new component has its own empty ones. -/
def Obj.clone {σ : Type} (L : Lib) (o : Obj σ) : Except PyErr (Obj σ) := do
  let attrs ← cloneAttrs L o o.cls.attrChecks
  .ok ⟨o.cls, attrs, o.cls.icsName, [], []⟩

/-- The value of a parameter as an object: a string, or a list with its identity
(/repo/src/ics/types.py:175-179). -/
inductive HVal where
  | str (s : Str)
  | list (id : Nat) (vs : List PVal)
deriving DecidableEq, Repr

/-- A content line or container with the identities of its mutable objects: the line and its dictionary of
parameters with the lists in it, the container and its list of items
(/repo/src/ics/contentline/container.py:133-149, 217-232).  Strings cannot be changed and have no identity
here. -/
inductive HItem where
  | line (id dict : Nat) (name : Str) (params : List (Str × HVal)) (value : Str)
  | cont (id list : Nat) (name : Str) (items : List HItem)
deriving Repr

/-- `copy_extra_params` (/repo/src/ics/types.py:171-186): the copies of the lists are new objects, numbered
from `n` on.  The next number is returned. -/
def copyParams (n : Nat) : List (Str × HVal) → List (Str × HVal) × Nat
  | [] => ([], n)
  | (k, .str s) :: ps =>
    let r := copyParams n ps
    ((k, .str s) :: r.1, r.2)
  | (k, .list _ vs) :: ps =>
    let r := copyParams (n + 1) ps
    ((k, .list n vs) :: r.1, r.2)

/-- `item.clone()` as called for the items of a container (/repo/src/ics/contentline/container.py:200-202,
260-266): a line is copied with its parameters, a container gets a new list with the same items. -/
def HItem.clone (n : Nat) : HItem → HItem × Nat
  | .line _ _ name params value =>
    let r := copyParams (n + 2) params
    (.line n (n + 1) (upper name) r.1 value, r.2)
  | .cont _ _ name items => (.cont n (n + 1) (upper name) items, n + 2)

/-- `(item.clone() for item in items)` (/repo/src/ics/contentline/container.py:265). -/
def cloneItems (n : Nat) : List HItem → List HItem × Nat
  | [] => ([], n)
  | i :: is =>
    let r := i.clone n
    let rs := cloneItems r.2 is
    (r.1 :: rs.1, rs.2)

/-- `container.clone(deep=True)` (/repo/src/ics/contentline/container.py:260-266); a line has no such
method and is left alone. -/
def HItem.deepClone (n : Nat) : HItem → HItem × Nat
  | .cont _ _ name items =>
    let r := cloneItems (n + 2) items
    (.cont n (n + 1) (upper name) r.1, r.2)
  | i => (i, n)

end Ics
