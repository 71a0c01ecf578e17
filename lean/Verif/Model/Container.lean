import Verif.Py.List

/-
`Container` as a mutable sequence: /repo/src/ics/contentline/container.py:216-319.
-/
namespace Ics

/-- What the container asks of an object `α`: whether it is a `ContentLine` or a `Container`
(/repo/src/ics/contentline/container.py:268-276), and its `name`, if it has that attribute
(container.py:292, 300).  Objects are what Python calls by that name: they may be shared and changed elsewhere. -/
structure ObjInfo (α : Type) where
  isItem : α → Bool
  name : α → Except PyErr Str
  name_ok : ∀ x, isItem x = true → ∃ n, name x = .ok n

/-- A `Container` (/repo/src/ics/contentline/container.py:226-232). -/
structure Cont (α : Type) where
  name : Str
  data : List α
deriving DecidableEq, Repr

/-- `check_items` (/repo/src/ics/contentline/container.py:268-276). -/
def checkItems {α : Type} (I : ObjInfo α) : List α → Except PyErr Unit
  | [] => .ok ()
  | x :: l => if I.isItem x then checkItems I l else .error .typeError

/-- `attr.validate(self)` (/repo/src/ics/contentline/container.py:288, 308): the validators of `name` and
`data` (container.py:227-232) in that order. -/
def Cont.validate {α : Type} (I : ObjInfo α) (c : Cont α) : Except PyErr Unit :=
  if c.name = [] then .error .valueError else checkItems I c.data

/-- `[cl for cl in self.data if cl.name != i]` (/repo/src/ics/contentline/container.py:300). -/
def withoutName {α : Type} (I : ObjInfo α) (name : Str) : List α → Except PyErr (List α)
  | [] => .ok []
  | x :: l => do
    let n ← I.name x
    let rest ← withoutName I name l
    .ok (if n = name then rest else x :: rest)

/-- A call that may change a container (/repo/src/ics/contentline/container.py:278-288, 298-308, 314-319). -/
inductive ContOp (α : Type) where
  | append (x : α)
  | insert (i : Idx) (x : α)
  | extend (xs : Gen α)
  | setitem (i : Idx) (v : AssignArg α)
  | delitem (i : Idx)
  | pop (i : Idx)
  | remove (eq : α → Bool)
  | clear
  | reverse

/-- One call: the container afterwards, and what is returned or raised (/repo/src/ics/contentline/container.py:
`insert` 278-280, `append` 282-284, `extend` 286-288, `__delitem__` 298-302, `__setitem__` 304-308, wrapped
list functions 310-319).  `list.extend` takes elements one by one and keeps those from before an exception of
the iterable.  Not modelled: an iterable that changes the container while it is being read, such as the
container itself. -/
def Cont.step {α : Type} (I : ObjInfo α) (c : Cont α) : ContOp α → Cont α × Except PyErr (Option α)
  | .append x =>
    match checkItems I [x] with
    | .error e => (c, .error e)
    | .ok () => ({ c with data := c.data ++ [x] }, .ok none)
  | .insert i x =>
    match checkItems I [x] with
    | .error e => (c, .error e)
    | .ok () =>
      match listInsert c.data i x with
      | .error e => (c, .error e)
      | .ok l => ({ c with data := l }, .ok none)
  | .extend xs =>
    let c := { c with data := c.data ++ xs.items }
    match xs.err with
    | some e => (c, .error e)
    | none =>
      match c.validate I with
      | .error e => (c, .error e)
      | .ok () => (c, .ok none)
  | .setitem i v =>
    match listSet c.data i v with
    | .error e => (c, .error e)
    | .ok l =>
      let c := { c with data := l }
      match c.validate I with
      | .error e => (c, .error e)
      | .ok () => (c, .ok none)
  | .delitem (.str name) =>
    match withoutName I name c.data with
    | .error e => (c, .error e)
    | .ok l => ({ c with data := l }, .ok none)
  | .delitem i =>
    match listDel c.data i with
    | .error e => (c, .error e)
    | .ok l => ({ c with data := l }, .ok none)
  | .pop i =>
    match listPop c.data i with
    | .error e => (c, .error e)
    | .ok (l, x) => ({ c with data := l }, .ok (some x))
  | .remove eq =>
    match listRemove eq c.data with
    | .error e => (c, .error e)
    | .ok l => ({ c with data := l }, .ok none)
  | .clear => ({ c with data := [] }, .ok none)
  | .reverse => ({ c with data := c.data.reverse }, .ok none)

/-- A history of calls (/repo/src/ics/contentline/container.py:278-319): the container afterwards and the
outcome of every call; the caller goes on after exceptions. -/
def Cont.history {α : Type} (I : ObjInfo α) (c : Cont α) :
    List (ContOp α) → Cont α × List (ContOp α × Except PyErr (Option α))
  | [] => (c, [])
  | op :: ops =>
    let r := c.step I op
    let rest := r.1.history I ops
    (rest.1, (op, r.2) :: rest.2)

end Ics
