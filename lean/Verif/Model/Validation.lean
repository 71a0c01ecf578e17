import Verif.Model.Component

/-
Assigning attributes: `RuntimeAttrValidation` (/repo/src/ics/types.py:112-140).
-/
namespace Ics

/-- Classes with attrs fields: the method resolution order of a class, beginning with the class itself, and
`attr.fields_dict(cls)` (/repo/src/ics/types.py:130).  A field is what its converter and its validator do with
a value, given the class of the instance (types.py:136-139). -/
structure Classes (κ β : Type) where
  mro : κ → List κ
  fields : κ → List (Str × (κ → β → Except PyErr β))

/-- An instance: its class and its attributes (/repo/src/ics/types.py:112-140). -/
structure RObj (κ β : Type) where
  cls : κ
  attrs : List (Str × β)
deriving DecidableEq, Repr

/-- The instances made so far, and the values of the class attribute `__attr_fields__`
(/repo/src/ics/types.py:129-130). -/
structure RState (κ β : Type) where
  cache : List (κ × List (Str × (κ → β → Except PyErr β)))
  objs : List (RObj κ β)

/-- `getattr(cls, "__attr_fields__", None)` (/repo/src/ics/types.py:129): attributes of classes are looked up
along the method resolution order. -/
def findCache {κ β : Type} [DecidableEq κ] (cache : List (κ × List (Str × (κ → β → Except PyErr β)))) :
    List κ → Option (List (Str × (κ → β → Except PyErr β)))
  | [] => none
  | c :: cs =>
    match dictGet? cache c with
    | some f => some f
    | none => findCache cache cs

/-- `cls.__attr_fields__` after it has been filled, if it was missing or empty, and the cache then
(/repo/src/ics/types.py:129-132). -/
def cachedFields {κ β : Type} [DecidableEq κ] (H : Classes κ β)
    (cache : List (κ × List (Str × (κ → β → Except PyErr β)))) (c : κ) :
    List (Str × (κ → β → Except PyErr β)) × List (κ × List (Str × (κ → β → Except PyErr β))) :=
  match findCache cache (H.mro c) with
  | some (f :: fs) => (f :: fs, cache)
  | _ => (H.fields c, dictSet cache c (H.fields c))

/-- Converter and validator of a key, if it is one of the fields (/repo/src/ics/types.py:131-139). -/
def runField {κ β : Type} (fields : List (Str × (κ → β → Except PyErr β))) (c : κ) (key : Str) (v : β) :
    Except PyErr β :=
  match dictGet? fields key with
  | some check => check c v
  | none => .ok v

/-- `obj.key = value` for the instance number `i` (/repo/src/ics/types.py:126-140); nothing, if there is no
such instance. -/
def RState.setattr {κ β : Type} [DecidableEq κ] (H : Classes κ β) (s : RState κ β) (i : Nat) (key : Str) (v : β) :
    RState κ β × Option PyErr :=
  match s.objs[i]? with
  | none => (s, none)
  | some o =>
    let r := cachedFields H s.cache o.cls
    match runField r.1 o.cls key v with
    | .error e => (⟨r.2, s.objs⟩, some e)
    | .ok v => (⟨r.2, s.objs.set i { o with attrs := dictSet o.attrs key v }⟩, none)

/-- The attributes of a new instance: the generated `__init__` runs converter and validator of every field
(attrs; /repo/src/ics/types.py:114-121).  All values are given by the caller, defaults included. -/
def initAttrs {κ β : Type} (c : κ) (args : List (Str × β)) :
    List (Str × (κ → β → Except PyErr β)) → Except PyErr (List (Str × β))
  | [] => .ok []
  | (name, check) :: fields =>
    match dictGet? args name with
    | none => .error .typeError
    | some v => do
      let v ← check c v
      let rest ← initAttrs c args fields
      .ok ((name, v) :: rest)

/-- What a program can do (/repo/src/ics/types.py:112-140): make an instance, assign an attribute, or call a
property setter or method that computes a value from the attributes and assigns it (as
/repo/src/ics/event.py:103-104, 123-126 do). -/
inductive ROp (κ β : Type) where
  | create (c : κ) (args : List (Str × β))
  | assign (i : Nat) (key : Str) (v : β)
  | call (i : Nat) (f : List (Str × β) → Except PyErr (Str × β))

/-- One operation: the state afterwards, and the exception, if any (/repo/src/ics/types.py:112-140). -/
def RState.step {κ β : Type} [DecidableEq κ] (H : Classes κ β) (s : RState κ β) :
    ROp κ β → RState κ β × Option PyErr
  | .create c args =>
    match initAttrs c args (H.fields c) with
    | .error e => (s, some e)
    | .ok attrs => ({ s with objs := s.objs ++ [⟨c, attrs⟩] }, none)
  | .assign i key v => s.setattr H i key v
  | .call i f =>
    match s.objs[i]? with
    | none => (s, none)
    | some o =>
      match f o.attrs with
      | .error e => (s, some e)
      | .ok (key, v) => s.setattr H i key v

/-- A history of operations; the caller goes on after exceptions (/repo/src/ics/types.py:112-140). -/
def RState.run {κ β : Type} [DecidableEq κ] (H : Classes κ β) (s : RState κ β) :
    List (ROp κ β) → RState κ β × List (Option PyErr)
  | [] => (s, [])
  | op :: ops =>
    let r := s.step H op
    let rest := r.1.run H ops
    (rest.1, r.2 :: rest.2)

/-- The component classes of the library with their base classes (/repo/src/ics/types.py:113, component.py:14,
event.py:55, 252, 274, todo.py:22, 32, icalendar.py:16, 35, alarm.py:27, 48, 61, 74, 87, 109). -/
inductive PyCls where
  | runtimeAttrValidation
  | component
  | calendarEntryAttrs
  | eventAttrs
  | todoAttrs
  | calendarAttrs
  | baseAlarm
  | concrete (c : Cls)
deriving DecidableEq, Repr

/-- The base class (see `PyCls`; /repo/src/ics/types.py:113, component.py:14, event.py:55, 252, 274, todo.py:22,
32, icalendar.py:16, 35, alarm.py:27, 48, 61, 74, 87, 109). -/
def PyCls.mro : PyCls → List PyCls
  | .runtimeAttrValidation => [.runtimeAttrValidation]
  | .component => [.component, .runtimeAttrValidation]
  | .calendarEntryAttrs => [.calendarEntryAttrs, .component, .runtimeAttrValidation]
  | .eventAttrs => [.eventAttrs, .calendarEntryAttrs, .component, .runtimeAttrValidation]
  | .todoAttrs => [.todoAttrs, .calendarEntryAttrs, .component, .runtimeAttrValidation]
  | .calendarAttrs => [.calendarAttrs, .component, .runtimeAttrValidation]
  | .baseAlarm => [.baseAlarm, .component, .runtimeAttrValidation]
  | .concrete .event => [.concrete .event, .eventAttrs, .calendarEntryAttrs, .component, .runtimeAttrValidation]
  | .concrete .todo => [.concrete .todo, .todoAttrs, .calendarEntryAttrs, .component, .runtimeAttrValidation]
  | .concrete .calendar => [.concrete .calendar, .calendarAttrs, .component, .runtimeAttrValidation]
  | .concrete c => [.concrete c, .baseAlarm, .component, .runtimeAttrValidation]

/-- A value that may be assigned: an attribute value, a container or a dictionary
(/repo/src/ics/component.py:18-26 and `AttrVal`). -/
inductive AnyVal (σ : Type) where
  | attr (v : AttrVal σ)
  | container (name : Str) (items : List Item)
  | dict (d : List (Str × ExtraVal))
deriving Repr

/-- `_TIMESPAN_TYPE` of the class of an instance (/repo/src/ics/event.py:73, 287, todo.py:40). -/
def PyCls.spanCls : PyCls → SpanCls
  | .concrete c => c.spanCls
  | _ => .plain

/-- Converter and validator of an attribute of a component (see `Check`, /repo/src/ics/event.py:56-85,
253-266); containers and dictionaries are not iterated over here: they are given a `TypeError` by list
attributes and all others that are checked, and accepted by those that are not. -/
def Check.runAny {σ : Type} (L : Lib) (check : Check) : AnyVal σ → Except PyErr (AnyVal σ)
  | .attr v => (check.run L v).map .attr
  | v => if check = .any then .ok v else .error .typeError

/-- The attrs fields an attribute converter stands for (/repo/src/ics/converter/base.py:110): name, and
converter with validator. -/
def Conv.fields {σ : Type} (L : Lib) : Conv → List (Str × (PyCls → AnyVal σ → Except PyErr (AnyVal σ)))
  | .value s => [(s.attr, fun _ => s.check.runAny L)]
  | .member attr _ => [(attr, fun _ => Check.list.runAny L)]
  | .timespan => [("timespan".toList, fun c => (Check.timespan c.spanCls).runAny L)]
  | .alarmAction => []
  | .calendarTimezone => []

/-- The fields of `Component` (/repo/src/ics/component.py:18-26). -/
def componentFields {σ : Type} : List (Str × (PyCls → AnyVal σ → Except PyErr (AnyVal σ))) :=
  [("extra".toList, fun _ v =>
      match v with
      | .container n is => .ok (.container n is)
      | _ => .error .typeError),
    ("extra_params".toList, fun _ v =>
      match v with
      | .dict d => .ok (.dict d)
      | _ => .error .typeError)]

/-- The component classes of the library (/repo/src/ics/event.py:56-70, 253-266, todo.py:23-29,
icalendar.py:17-32, alarm.py:34-97); a class without attrs fields of its own has those of its base. -/
def libClasses (σ : Type) (L : Lib) : Classes PyCls (AnyVal σ) where
  mro := PyCls.mro
  fields
    | .runtimeAttrValidation => []
    | .component => componentFields
    | .calendarEntryAttrs => componentFields ++ entryConvs.flatMap (Conv.fields L)
    | .eventAttrs => componentFields ++ Cls.event.convs.flatMap (Conv.fields L)
    | .todoAttrs => componentFields ++ Cls.todo.convs.flatMap (Conv.fields L)
    | .calendarAttrs => componentFields ++ Cls.calendar.convs.flatMap (Conv.fields L)
    | .baseAlarm => componentFields ++ alarmConvs.flatMap (Conv.fields L)
    | .concrete c => componentFields ++ c.convs.flatMap (Conv.fields L)

end Ics
