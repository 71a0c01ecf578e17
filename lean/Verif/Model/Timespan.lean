import Verif.Py.Datetime

/-
Time spans of events and todos: /repo/src/ics/timespan.py, the rounding functions of
/repo/src/ics/utils.py and the time-related part of /repo/src/ics/event.py and todo.py.
-/
namespace Ics

/-- The precision of a span (/repo/src/ics/timespan.py:166).  `other` is any string that is not a key
of `TIMEDELTA_CACHE` (/repo/src/ics/utils.py:13).  The key `0` of that cache is not modelled:
precisions are strings. -/
inductive Precision where
  | day
  | second
  | other (s : Str)
deriving DecidableEq, Repr

/-- The class of a span: `Timespan` (/repo/src/ics/timespan.py:156), `EventTimespan` (581) or
`TodoTimespan` (602). -/
inductive SpanCls where
  | plain
  | event
  | todo
deriving DecidableEq, Repr

/-- A `Timespan` object (/repo/src/ics/timespan.py:155-166); durations are in microseconds. -/
structure Span where
  cls : SpanCls
  begin? : Option DT := none
  end? : Option DT := none
  dur? : Option Int := none
  prec : Precision := .second
deriving DecidableEq, Repr

/-- `TIMEDELTA_CACHE[precision]` (/repo/src/ics/utils.py:13). -/
def timedeltaCache : Precision → Except PyErr Int
  | .day => .ok dayUs
  | .second => .ok 1000000
  | .other _ => .error .keyError

/-- `timedelta_nearly_zero` (/repo/src/ics/utils.py:69-70, 14). -/
def nearlyZero (td : Int) : Bool := decide (-500000 ≤ td ∧ td ≤ 500000)

/-- `ceil_datetime_to_midnight` (/repo/src/ics/utils.py:113-122); `floor_datetime_to_midnight` is
`DT.floorDay`.  The case of a `date` argument (returned as it is) is not modelled. -/
def Env.ceilDay (e : Env) (d : DT) : Except PyErr DT :=
  if e.eq d.floorDay d then .ok d.floorDay else d.floorDay.add dayUs

/-- `floor_timedelta_to_days` (/repo/src/ics/utils.py:125-126). -/
def floorDays (td : Int) : Int := td - td % dayUs

/-- `ceil_timedelta_to_days` (/repo/src/ics/utils.py:129-134). -/
def ceilDays (td : Int) : Int :=
  let mod := td % dayUs
  if mod = 0 then td else td + dayUs - mod

/-- `is_all_day` (/repo/src/ics/timespan.py:413-414). -/
def Span.isAllDay (s : Span) : Bool := decide (s.prec = .day)

/-- `is_floating` (/repo/src/ics/timespan.py:416-423). -/
def Span.isFloating (s : Span) : Bool :=
  match s.begin? with
  | none =>
    match s.end? with
    | none => true
    | some en => en.tz.isNone
  | some b => b.tz.isNone

/-- `__bool__` (/repo/src/ics/timespan.py:344-345). -/
def Span.truthy (s : Span) : Bool := s.begin?.isSome || s.end?.isSome

/-- `get_effective_duration` (/repo/src/ics/timespan.py:402-408 and, for events, 590-598). -/
def Env.effDur (e : Env) (s : Span) : Except PyErr (Option Int) :=
  match s.dur? with
  | some d => .ok (some d)
  | none =>
    match s.end?, s.begin? with
    | some en, some b =>
      match e.sub en b with
      | .ok d => .ok (some d)
      | .error x => .error x
    | _, _ =>
      match s.cls with
      | .event => .ok (some (if s.isAllDay then dayUs else 0))
      | _ => .ok none

/-- `get_effective_end` (/repo/src/ics/timespan.py:392-400). -/
def Env.effEnd (e : Env) (s : Span) : Except PyErr (Option DT) :=
  match s.end? with
  | some en => .ok (some en)
  | none =>
    match s.begin? with
    | none => .ok none
    | some b =>
      match e.effDur s with
      | .error x => .error x
      | .ok none => .ok none
      | .ok (some d) =>
        match b.add d with
        | .ok en => .ok (some en)
        | .error x => .error x

/-- `a > b` on `datetime`s (used in /repo/src/ics/timespan.py:246). -/
def Env.gt (e : Env) (a b : DT) : Except PyErr Bool := (e.cmp a b).map fun x => decide (0 < x)

/-- `validate_timeprecision` (/repo/src/ics/timespan.py:228-239). -/
def Env.validatePrecision (e : Env) (s : Span) (d : DT) : Except PyErr Unit :=
  if s.prec = .day then
    if !e.eq d.floorDay d then .error .valueError
    else if d.tz.isSome then .error .valueError
    else .ok ()
  else .ok ()

/-- `if c: raise ValueError(...)` (/repo/src/ics/timespan.py:246-277). -/
def raiseIf (c : Bool) : Except PyErr Unit := if c then .error .valueError else .ok ()

/-- An all-day span is at least one day long (/repo/src/ics/timespan.py:250-255). -/
def Env.validateOneDay (e : Env) (s : Span) (b en : DT) : Except PyErr Unit :=
  if s.prec = .day then do
    let next ← b.add dayUs
    let early ← e.lt en next
    raiseIf early
  else .ok ()

/-- The distance from begin to end has the span's precision (/repo/src/ics/timespan.py:270-277). -/
def Env.validateExtent (e : Env) (s : Span) : Except PyErr Unit := do
  match ← e.effDur s with
  | none => .ok ()
  | some d =>
    if d = 0 then .ok ()
    else do
      let unit ← timedeltaCache s.prec
      raiseIf (!nearlyZero (d % unit))

/-- The checks for a begin and an end (/repo/src/ics/timespan.py:245-277). -/
def Env.validateEnd (e : Env) (s : Span) (b en : DT) : Except PyErr Unit := do
  e.validatePrecision s en
  let late ← e.gt b en
  raiseIf late
  e.validateOneDay s b en
  raiseIf s.dur?.isSome
  raiseIf (b.tz.isNone && en.tz.isSome)
  raiseIf (b.tz.isSome && en.tz.isNone)
  e.validateExtent s

/-- The checks for a begin and a duration (/repo/src/ics/timespan.py:279-292). -/
def validateDur (s : Span) (d : Int) : Except PyErr Unit := do
  raiseIf (decide (d < 0))
  raiseIf (decide (s.prec = .day ∧ d < dayUs))
  let unit ← timedeltaCache s.prec
  raiseIf (!nearlyZero (d % unit))

/-- `if value is not None: check(value)` (/repo/src/ics/timespan.py:244, 279, 295). -/
def ifGiven {α : Type} (x : Option α) (check : α → Except PyErr Unit) : Except PyErr Unit :=
  match x with
  | some v => check v
  | none => .ok ()

/-- `Timespan.validate` (/repo/src/ics/timespan.py:227-300). -/
def Env.validateBase (e : Env) (s : Span) : Except PyErr Unit :=
  match s.begin? with
  | some b => do
    e.validatePrecision s b
    ifGiven s.end? (e.validateEnd s b)
    ifGiven s.dur? (validateDur s)
  | none => do
    ifGiven s.end? (e.validatePrecision s)
    raiseIf s.dur?.isSome

/-- `validate`, with the extra check of `EventTimespan` (/repo/src/ics/timespan.py:227-300,
585-588). -/
def Env.validate (e : Env) (s : Span) : Except PyErr Unit := do
  e.validateBase s
  raiseIf (decide (s.cls = .event) && s.begin?.isNone && s.end?.isSome)

/-- Construction of a span (`__attrs_post_init__`, /repo/src/ics/timespan.py:171-172).  The type
checks of the attributes are those of Lean. -/
def Env.mkSpan (e : Env) (s : Span) : Except PyErr Span := do
  e.validate s
  .ok s

/-- `replace_timezone` (/repo/src/ics/timespan.py:196-207, with `replace`, 174-194). -/
def Env.replaceTimezone (e : Env) (s : Span) (tz : Option Tz) : Except PyErr Span :=
  if s.isAllDay then .error .valueError
  else
    e.mkSpan { s with
      begin? := s.begin?.map (·.replaceTz tz)
      end? := s.end?.map (·.replaceTz tz) }

/-- `dt.astimezone(tzinfo)` on a value that may be missing (/repo/src/ics/timespan.py:217-222). -/
def Env.convertOpt (e : Env) (d : Option DT) (tz : Option Tz) : Except PyErr (Option DT) :=
  match d with
  | none => .ok none
  | some d =>
    match e.astimezone? d tz with
    | .ok d => .ok (some d)
    | .error x => .error x

/-- `convert_timezone` (/repo/src/ics/timespan.py:209-225).  The warning is not modelled. -/
def Env.convertTimezone (e : Env) (s : Span) (tz : Option Tz) : Except PyErr Span :=
  if s.isAllDay then .error .valueError
  else do
    let b ← e.convertOpt s.begin? tz
    let en ← e.convertOpt s.end? tz
    e.mkSpan { s with begin? := b, end? := en }

/-- `get_end_representation` (/repo/src/ics/timespan.py:425-431). -/
inductive EndRepr where
  | duration
  | end_
  | none
deriving DecidableEq, Repr

/-- `get_end_representation` (/repo/src/ics/timespan.py:425-431). -/
def Span.endRepr (s : Span) : EndRepr :=
  if s.dur?.isSome then .duration else if s.end?.isSome then .end_ else .none

/-- The rounded end of `make_all_day` (/repo/src/ics/timespan.py:357-363): `begin` is the rounded
begin. -/
def Env.allDayEnd (e : Env) (begin? : Option DT) (en : DT) : Except PyErr DT := do
  let en ← e.ceilDay en
  let en := en.replaceTz none
  match begin? with
  | some b => if e.eq en b then en.add dayUs else .ok en
  | none => .ok en

/-- The rounded effective end of `make_all_day`, if there is one (/repo/src/ics/timespan.py:353-363). -/
def Env.allDayEnd? (e : Env) (s : Span) : Except PyErr (Option DT) := do
  match ← e.effEnd s with
  | some en => do
    let en ← e.allDayEnd (s.begin?.map fun b => b.floorDay.replaceTz none) en
    .ok (some en)
  | none => .ok none

/-- The end of `make_all_day` (/repo/src/ics/timespan.py:365-370). -/
def Env.makeAllDayFrom (e : Env) (s : Span) (b en : Option DT) : Except PyErr Span :=
  if s.endRepr = .duration then
    match en, b with
    | some en, some b => do
      let d ← e.sub en b
      e.mkSpan { s with begin? := some b, end? := none, dur? := some d, prec := .day }
    | _, _ => .error .assertionError
  else e.mkSpan { s with begin? := b, end? := en, dur? := none, prec := .day }

/-- `make_all_day` (/repo/src/ics/timespan.py:349-370). -/
def Env.makeAllDay (e : Env) (s : Span) : Except PyErr Span :=
  if s.isAllDay then .ok s
  else do
    let en ← e.allDayEnd? s
    e.makeAllDayFrom s (s.begin?.map fun b => b.floorDay.replaceTz none) en

/-- The argument of `convert_end` (/repo/src/ics/timespan.py:372): `None` or a string. -/
inductive EndTarget where
  | duration
  | end_
  | due
  | none
  | other
deriving DecidableEq, Repr

/-- `convert_end` (/repo/src/ics/timespan.py:372-385).  `_end_name` is `"due"` for todos and `"end"`
otherwise (168-169, 582, 603). -/
def Env.convertEnd (e : Env) (s : Span) (target : EndTarget) : Except PyErr Span :=
  let currentIsEnd := s.endRepr = .end_
  let targetIsEnd := target = .end_ ∨ (target = .due ∧ s.cls = .todo)
  if (s.endRepr = .duration ∧ target = .duration) ∨ (s.endRepr = .none ∧ target = .none) ∨
      (currentIsEnd ∧ targetIsEnd) then .ok s
  else if currentIsEnd ∧ target = .duration then do
    let d ← e.effDur s
    e.mkSpan { s with end? := none, dur? := d }
  else if s.endRepr = .duration ∧ targetIsEnd then do
    let en ← e.effEnd s
    e.mkSpan { s with end? := en, dur? := none }
  else if target = .none then e.mkSpan { s with end? := none, dur? := none }
  else .error .valueError

/-! ### Normalization -/

/-- `NormalizationAction` or a `bool` (/repo/src/ics/timespan.py:44-47): `False` acts as `IGNORE`,
`True` as `CONVERT`. -/
inductive NormAction where
  | ignore
  | replace
  | convert
deriving DecidableEq, Repr

/-- `Normalization` (/repo/src/ics/timespan.py:50-58).  `replacement` is the zone object that the
replacement gives for the call at hand. -/
structure Normalization where
  replacement : Option Tz
  floating : NormAction := .convert
  withTz : NormAction := .convert
deriving DecidableEq, Repr

/-- The action chosen by `normalize` (/repo/src/ics/timespan.py:114-127). -/
def Normalization.action (n : Normalization) (floating : Bool) : NormAction :=
  if floating then n.floating else n.withTz

/-- `Normalization.normalize` of a `datetime` (/repo/src/ics/timespan.py:108-132). -/
def Env.normalizeDT (e : Env) (n : Normalization) (d : DT) : Except PyErr DT :=
  match n.action d.tz.isNone with
  | .ignore => .ok d
  | .replace => .ok (d.replaceTz n.replacement)
  | .convert => e.astimezone? d n.replacement

/-- `Normalization.normalize` of a value that may be `None` (/repo/src/ics/timespan.py:84-85). -/
def Env.normalizeOpt (e : Env) (n : Normalization) (d : Option DT) : Except PyErr (Option DT) :=
  match d with
  | none => .ok none
  | some d =>
    match e.normalizeDT n d with
    | .ok d => .ok (some d)
    | .error x => .error x

/-- `Normalization.normalize` of a span (/repo/src/ics/timespan.py:86-89, 114-132). -/
def Env.normalizeSpan (e : Env) (n : Normalization) (s : Span) : Except PyErr Span :=
  match n.action s.isFloating with
  | .ignore => .ok s
  | .replace => e.replaceTimezone s n.replacement
  | .convert => e.convertTimezone s n.replacement

/-! ### Comparison -/

/-- `CMP_DATETIME_NONE_DEFAULT`, 1900-01-01 00:00 (/repo/src/ics/timespan.py:136). -/
def cmpDefault : DT := ⟨693595 * 86400000000, false, none⟩

/-- `CMP_NORMALIZATION` (/repo/src/ics/timespan.py:137-139): floating times are converted to a newly
created `tzlocal()`, here object number `k`. -/
def cmpNormalization (k : Nat) : Normalization := ⟨some (.loc k), .convert, .ignore⟩

/-- `timespan_tuple` with `CMP_NORMALIZATION` (/repo/src/ics/timespan.py:450-459; for todos reversed,
605-611).  `tzlocal()` is called for begin and for end separately, giving objects `k` and `k + 1`. -/
def Env.spanTuple (e : Env) (k : Nat) (dflt : Option DT) (s : Span) :
    Except PyErr (Option DT × Option DT) := do
  let b ← e.normalizeOpt (cmpNormalization k) (s.begin?.or dflt)
  let en ← e.effEnd s
  let en ← e.normalizeOpt (cmpNormalization (k + 1)) (en.or dflt)
  .ok (if s.cls = .todo then (en, b) else (b, en))

/-- `cmp_tuple` (/repo/src/ics/timespan.py:461-469). -/
def Env.cmpTuple (e : Env) (k : Nat) (s : Span) : Except PyErr (Option DT × Option DT) :=
  e.spanTuple k (some cmpDefault) s

/-- `==` on values that may be `None` (used by the tuple comparisons,
/repo/src/ics/timespan.py:558). -/
def Env.optEq (e : Env) : Option DT → Option DT → Bool
  | none, none => true
  | some a, some b => e.eq a b
  | _, _ => false

/-- An ordering operator on values that may be `None` (used by the tuple comparisons,
/repo/src/ics/timespan.py:558): `None` cannot be ordered. -/
def optOp (op : DT → DT → Except PyErr Bool) : Option DT → Option DT → Except PyErr Bool
  | some a, some b => op a b
  | _, _ => .error .typeError

/-- Comparison of two tuples (`tuplerichcompare` of CPython; used in
/repo/src/ics/timespan.py:556-578): the operator is applied to the first pair that is not equal;
`rest` is the result if there is none. -/
def Env.tupleOp (e : Env) (op : DT → DT → Except PyErr Bool) (rest : Except PyErr Bool)
    (a b : Option DT × Option DT) : Except PyErr Bool :=
  if e.optEq a.1 b.1 then
    if e.optEq a.2 b.2 then rest else optOp op a.2 b.2
  else optOp op a.1 b.1

/-- `a >= b` on `datetime`s (used by the tuple comparison of /repo/src/ics/timespan.py:576). -/
def Env.ge (e : Env) (a b : DT) : Except PyErr Bool := (e.cmp a b).map fun x => decide (0 ≤ x)

/-- `__lt__` of spans (/repo/src/ics/timespan.py:556-560). -/
def Env.spanLt (e : Env) (k : Nat) (a b : Span) : Except PyErr Bool := do
  let x ← e.cmpTuple k a
  let y ← e.cmpTuple (k + 2) b
  e.tupleOp e.lt (.ok false) x y

/-- `__gt__` of spans (/repo/src/ics/timespan.py:562-566). -/
def Env.spanGt (e : Env) (k : Nat) (a b : Span) : Except PyErr Bool := do
  let x ← e.cmpTuple k a
  let y ← e.cmpTuple (k + 2) b
  e.tupleOp e.gt (.ok false) x y

/-- `__le__` of spans (/repo/src/ics/timespan.py:568-572). -/
def Env.spanLe (e : Env) (k : Nat) (a b : Span) : Except PyErr Bool := do
  let x ← e.cmpTuple k a
  let y ← e.cmpTuple (k + 2) b
  e.tupleOp e.le (.ok true) x y

/-- `__ge__` of spans (/repo/src/ics/timespan.py:574-578). -/
def Env.spanGe (e : Env) (k : Nat) (a b : Span) : Except PyErr Bool := do
  let x ← e.cmpTuple k a
  let y ← e.cmpTuple (k + 2) b
  e.tupleOp e.ge (.ok true) x y

/-- `__eq__` of spans, generated by attrs (/repo/src/ics/timespan.py:155): the same class and equal
attributes. -/
def Env.spanEq (e : Env) (a b : Span) : Bool :=
  decide (a.cls = b.cls) && e.optEq a.begin? b.begin? && e.optEq a.end? b.end? &&
    decide (a.dur? = b.dur?) && decide (a.prec = b.prec)

/-! ### Interval queries -/

/-- `first.begin` and `first.end` on the result of `timespan_tuple`
(/repo/src/ics/timespan.py:478-554): for a todo it is a plain `tuple` without these attributes
(605-611). -/
def Span.tupleAttr (s : Span) (d : Option DT) : Except PyErr DT :=
  if s.cls = .todo then .error .attributeError
  else
    match d with
    | some d => .ok d
    | none => .error .typeError

/-- One step of `__require_tuple_components` (/repo/src/ics/timespan.py:471-476). -/
def requireSome (req : Bool) (d : Option DT) : Except PyErr Unit :=
  if req && d.isNone then .error .valueError else .ok ()

/-- `__require_tuple_components` for two tuples (/repo/src/ics/timespan.py:471-476). -/
def requireAll (r1 r2 r3 r4 : Bool) (a b : Option DT × Option DT) : Except PyErr Unit := do
  requireSome r1 a.1
  requireSome r2 a.2
  requireSome r3 b.1
  requireSome r4 b.2

/-- `lo <= x < hi` (/repo/src/ics/timespan.py:488): the second comparison is only made if the first
one holds. -/
def Env.within (e : Env) (lo x hi : Except PyErr DT) : Except PyErr Bool := do
  let l ← lo
  let v ← x
  if ← e.le l v then do
    let h ← hi
    e.lt v h
  else .ok false

/-- `starts_within` (/repo/src/ics/timespan.py:478-488). -/
def Env.startsWithin (e : Env) (k : Nat) (s o : Span) : Except PyErr Bool := do
  let a ← e.spanTuple k none s
  let b ← e.spanTuple (k + 2) none o
  requireAll true false true true a b
  e.within (o.tupleAttr b.1) (s.tupleAttr a.1) (o.tupleAttr b.2)

/-- `ends_within` (/repo/src/ics/timespan.py:490-500). -/
def Env.endsWithin (e : Env) (k : Nat) (s o : Span) : Except PyErr Bool := do
  let a ← e.spanTuple k none s
  let b ← e.spanTuple (k + 2) none o
  requireAll false true true true a b
  e.within (o.tupleAttr b.1) (s.tupleAttr a.2) (o.tupleAttr b.2)

/-- `a or b` for conditions that may raise (/repo/src/ics/timespan.py:512-517). -/
def orElse (a b : Except PyErr Bool) : Except PyErr Bool := do
  if ← a then .ok true else b

/-- `intersects` (/repo/src/ics/timespan.py:502-517). -/
def Env.intersects (e : Env) (k : Nat) (s o : Span) : Except PyErr Bool := do
  let a ← e.spanTuple k none s
  let b ← e.spanTuple (k + 2) none o
  requireAll true true true true a b
  orElse (e.within (o.tupleAttr b.1) (s.tupleAttr a.1) (o.tupleAttr b.2))
    (orElse (e.within (o.tupleAttr b.1) (s.tupleAttr a.2) (o.tupleAttr b.2))
      (orElse (e.within (s.tupleAttr a.1) (o.tupleAttr b.1) (s.tupleAttr a.2))
        (e.within (s.tupleAttr a.1) (o.tupleAttr b.2) (s.tupleAttr a.2))))

/-- `includes` of an instant (/repo/src/ics/timespan.py:520-528). -/
def Env.includesInstant (e : Env) (k : Nat) (s : Span) (t : DT) : Except PyErr Bool := do
  let a ← e.spanTuple k none s
  let t ← e.normalizeDT (cmpNormalization (k + 2)) t
  requireSome true a.1
  requireSome true a.2
  e.within (s.tupleAttr a.1) (.ok t) (s.tupleAttr a.2)

/-- `a <= b and c < d` (/repo/src/ics/timespan.py:540, 554). -/
def Env.containedIn (e : Env) (a b c d : Except PyErr DT) : Except PyErr Bool := do
  let x ← a
  let y ← b
  if ← e.le x y then do
    let z ← c
    let w ← d
    e.lt z w
  else .ok false

/-- `includes` of a span (/repo/src/ics/timespan.py:530-540). -/
def Env.includes (e : Env) (k : Nat) (s o : Span) : Except PyErr Bool := do
  let a ← e.spanTuple k none s
  let b ← e.spanTuple (k + 2) none o
  requireAll true true true true a b
  e.containedIn (s.tupleAttr a.1) (o.tupleAttr b.1) (o.tupleAttr b.2) (s.tupleAttr a.2)

/-- `is_included_in` (/repo/src/ics/timespan.py:544-554). -/
def Env.isIncludedIn (e : Env) (k : Nat) (s o : Span) : Except PyErr Bool := do
  let a ← e.spanTuple k none s
  let b ← e.spanTuple (k + 2) none o
  requireAll true true true true a b
  e.containedIn (o.tupleAttr b.1) (s.tupleAttr a.1) (s.tupleAttr a.2) (o.tupleAttr b.2)

end Ics
