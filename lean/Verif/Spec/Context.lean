import Verif.Model.Context

/-
What the context managers should do: the settings are lexically scoped.  Nothing is changed or restored
here; a `with` statement gives its body another environment.
-/
namespace Ics

/-- The width a `contentline_set_wrap` asks for: a positive number as it is, anything false or negative
means "do not wrap". -/
def wantedWidth : WidthArg → Option Int
  | .none => some sysMaxsize
  | .int n => some (if 0 < n then n else sysMaxsize)
  | .other => none

/-- The settings a program sees and the exception it ends with, when settings are scoped lexically. -/
def Prog.scoped : Prog → Settings → List Settings × Option PyErr
  | .done, _ => ([], none)
  | .raise e, _ => ([], some e)
  | .read k, env => (env :: ((k env).scoped env).1, ((k env).scoped env).2)
  | .seq p q, env =>
    match p.scoped env with
    | (seen, some e) => (seen, some e)
    | (seen, none) => (seen ++ (q.scoped env).1, (q.scoped env).2)
  | .tryExcept p handler, env =>
    match p.scoped env with
    | (seen, none) => (seen, none)
    | (seen, some e) => (seen ++ ((handler e).scoped env).1, ((handler e).scoped env).2)
  | .tryFinally p q, env =>
    ((p.scoped env).1 ++ (q.scoped env).1,
      match (q.scoped env).2 with
      | some e => some e
      | none => (p.scoped env).2)
  | .withWrap a body, env =>
    match wantedWidth a with
    | none => ([], some .typeError)
    | some w => body.scoped ⟨w, env.uid, env.dtstamp⟩
  | .withDeterministic uid dtstamp body, env => body.scoped ⟨env.width, .const uid, .const dtstamp⟩

end Ics
