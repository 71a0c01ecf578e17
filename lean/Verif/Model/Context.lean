import Verif.Py.Datetime

/-
The context managers `contentline_set_wrap` (/repo/src/ics/contentline/container.py:32-42) and
`deterministic_event_data` (/repo/src/ics/event.py:40-51).
-/
namespace Ics

/-- What a factory of default UIDs or time stamps is: the library's own (`uid_gen`, `now_in_utc`,
/repo/src/ics/event.py:34-37) or `lambda: x` (event.py:45-46). -/
inductive Factory (α : Type) where
  | builtin
  | const (x : α)
deriving DecidableEq, Repr

/-- The mutable settings: `DEFAULT_LINE_WRAP.width` (/repo/src/ics/contentline/container.py:19-20) and the
context variables `default_uid_factory` and `default_dtstamp_factory` (/repo/src/ics/event.py:34-37). -/
structure Settings where
  width : Int
  uid : Factory Str
  dtstamp : Factory DT
deriving DecidableEq, Repr

/-- `sys.maxsize` (/repo/src/ics/contentline/container.py:36) of a 64 bit CPython. -/
def sysMaxsize : Int := 9223372036854775807

/-- The argument of `contentline_set_wrap`: `None`, an integer, or something that is neither false nor
comparable with a number (/repo/src/ics/contentline/container.py:35). -/
inductive WidthArg where
  | none
  | int (n : Int)
  | other
deriving DecidableEq, Repr

/-- `contentline_set_wrap` up to its `yield` (/repo/src/ics/contentline/container.py:34-38): what it
remembers, and the new settings. -/
def enterWrap (a : WidthArg) (s : Settings) : Except PyErr (Int × Settings) :=
  let oldwidth := s.width
  match a with
  | .none => .ok (oldwidth, { s with width := sysMaxsize })
  | .int n =>
    if n = 0 ∨ n ≤ 0 then .ok (oldwidth, { s with width := sysMaxsize })
    else .ok (oldwidth, { s with width := n })
  | .other => .error .typeError

/-- The `finally` of `contentline_set_wrap` (/repo/src/ics/contentline/container.py:41-42). -/
def exitWrap (oldwidth : Int) (s : Settings) : Settings := { s with width := oldwidth }

/-- `deterministic_event_data` up to its `yield` (/repo/src/ics/event.py:45-46): the tokens (a token
holds the value the variable had before) and the new settings. -/
def enterDeterministic (uid : Str) (dtstamp : DT) (s : Settings) : (Factory Str × Factory DT) × Settings :=
  let uidToken := s.uid
  let s := { s with uid := .const uid }
  let dtstampToken := s.dtstamp
  let s := { s with dtstamp := .const dtstamp }
  ((uidToken, dtstampToken), s)

/-- The `finally` of `deterministic_event_data` (/repo/src/ics/event.py:49-51). -/
def exitDeterministic (tokens : Factory Str × Factory DT) (s : Settings) : Settings :=
  let s := { s with uid := tokens.1 }
  { s with dtstamp := tokens.2 }

/-- A Python program using the context managers of /repo/src/ics/contentline/container.py:32-42 and
event.py:40-51 in `with` statements.  `read` looks at the settings (as writing a line or making an event
does, container.py:157, event.py:58, 66) and goes on as it likes; sequencing, exceptions and `try` are
Python's. -/
inductive Prog where
  | done
  | raise (e : PyErr)
  | read (k : Settings → Prog)
  | seq (p q : Prog)
  | tryExcept (p : Prog) (handler : PyErr → Prog)
  | tryFinally (p q : Prog)
  | withWrap (a : WidthArg) (body : Prog)
  | withDeterministic (uid : Str) (dtstamp : DT) (body : Prog)

/-- What running a program gives: the settings it saw, in order, the exception it ends with, if any, and
the settings afterwards (/repo/src/ics/contentline/container.py:32-42, event.py:40-51). -/
structure ProgOutcome where
  seen : List Settings
  err : Option PyErr
  after : Settings
deriving DecidableEq, Repr

/-- Running a program.  A `with` statement runs the manager up to its `yield`, then the body, then, however
the body ended, the `finally` of the manager; the exception goes on
(/repo/src/ics/contentline/container.py:32-42, event.py:40-51, `contextlib.contextmanager`). -/
def Prog.run : Prog → Settings → ProgOutcome
  | .done, s => ⟨[], none, s⟩
  | .raise e, s => ⟨[], some e, s⟩
  | .read k, s =>
    let r := (k s).run s
    ⟨s :: r.seen, r.err, r.after⟩
  | .seq p q, s =>
    let r := p.run s
    match r.err with
    | some e => ⟨r.seen, some e, r.after⟩
    | none =>
      let r' := q.run r.after
      ⟨r.seen ++ r'.seen, r'.err, r'.after⟩
  | .tryExcept p handler, s =>
    let r := p.run s
    match r.err with
    | none => r
    | some e =>
      let r' := (handler e).run r.after
      ⟨r.seen ++ r'.seen, r'.err, r'.after⟩
  | .tryFinally p q, s =>
    let r := p.run s
    let r' := q.run r.after
    ⟨r.seen ++ r'.seen, r'.err.orElse fun _ => r.err, r'.after⟩
  | .withWrap a body, s =>
    match enterWrap a s with
    | .error e => ⟨[], some e, s⟩
    | .ok (old, s) =>
      let r := body.run s
      ⟨r.seen, r.err, exitWrap old r.after⟩
  | .withDeterministic uid dtstamp body, s =>
    let (tokens, s) := enterDeterministic uid dtstamp s
    let r := body.run s
    ⟨r.seen, r.err, exitDeterministic tokens r.after⟩

end Ics
