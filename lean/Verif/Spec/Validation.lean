import Verif.Model.Validation

/-
What assigning attributes should do: the fields of the class of the instance decide, and nothing else.
-/
namespace Ics

variable {κ β : Type}

/-- Assigning without any cache. -/
def assignSpec (H : Classes κ β) (objs : List (RObj κ β)) (i : Nat) (key : Str) (v : β) :
    List (RObj κ β) × Option PyErr :=
  match objs[i]? with
  | none => (objs, none)
  | some o =>
    match runField (H.fields o.cls) o.cls key v with
    | .error e => (objs, some e)
    | .ok v => (objs.set i { o with attrs := dictSet o.attrs key v }, none)

/-- One operation without any cache. -/
def stepSpec (H : Classes κ β) (objs : List (RObj κ β)) : ROp κ β → List (RObj κ β) × Option PyErr
  | .create c args =>
    match initAttrs c args (H.fields c) with
    | .error e => (objs, some e)
    | .ok attrs => (objs ++ [⟨c, attrs⟩], none)
  | .assign i key v => assignSpec H objs i key v
  | .call i f =>
    match objs[i]? with
    | none => (objs, none)
    | some o =>
      match f o.attrs with
      | .error e => (objs, some e)
      | .ok (key, v) => assignSpec H objs i key v

/-- A history without any cache. -/
def runSpec (H : Classes κ β) (objs : List (RObj κ β)) : List (ROp κ β) → List (RObj κ β) × List (Option PyErr)
  | [] => (objs, [])
  | op :: ops => ((runSpec H (stepSpec H objs op).1 ops).1, (stepSpec H objs op).2 :: (runSpec H (stepSpec H objs op).1 ops).2)

/-- Every field of the instance holds something its converter and validator have let through. -/
def Validated (H : Classes κ β) (o : RObj κ β) : Prop :=
  ∀ name check, dictGet? (H.fields o.cls) name = some check →
    ∃ v, dictGet? o.attrs name = some v ∧ ∃ u, check o.cls u = .ok v

/-- The classes of which a history makes instances. -/
def created : List (ROp κ β) → List κ
  | [] => []
  | .create c _ :: ops => c :: created ops
  | _ :: ops => created ops

/-- Among the used classes, a base class has the same fields as the classes derived from it. -/
def NoHiddenFields (H : Classes κ β) (used : List κ) : Prop :=
  ∀ c ∈ used, ∀ d ∈ used, d ∈ H.mro c → H.fields d = H.fields c

end Ics
