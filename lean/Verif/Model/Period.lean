import Verif.Model.Datetime
import Verif.Model.Timespan

/-
`PeriodConverter` (/repo/src/ics/valuetype/datetime.py:376-438).
-/
namespace Ics

/-- `value.partition("/")` (/repo/src/ics/valuetype/datetime.py:391): `none` if there is no
separator. -/
def partitionSlash : Str → Option (Str × Str)
  | [] => none
  | c :: s =>
    if c = '/' then some ([], s)
    else
      match partitionSlash s with
      | none => none
      | some (a, b) => some (c :: a, b)

/-- `PeriodConverter.parse` (/repo/src/ics/valuetype/datetime.py:385-406): the span, the parameters and
the context afterwards. -/
def periodParse (w : World) (value : Str) (params : Params) (ctx : Ctx) :
    Except PyErr (Span × Params × Ctx) :=
  match partitionSlash value with
  | none => .error .valueError
  | some (start, stop) =>
    if stop.head? = some 'P' then do
      let (b, params', ctx) ← parseDt w baseFormats start params ctx
      let d ← durationParse stop
      let s ← w.mkSpan ⟨.plain, some b, none, some d, .second⟩
      .ok (s, params', ctx)
    else do
      let (b, params', ctx) ← parseDt w baseFormats start params ctx
      let (en, _, ctx) ← parseDt w baseFormats stop params ctx
      let s ← w.mkSpan ⟨.plain, some b, some en, none, .second⟩
      .ok (s, params', ctx)

/-- The texts of a list of parameter values: a `QuotedParamValue` equals the plain string with the
same text (`collections.UserString.__eq__`; used by /repo/src/ics/valuetype/datetime.py:433). -/
def pvalTexts (vs : List PVal) : List Str := vs.map PVal.text

/-- `a == b` on dictionaries of parameters, regardless of the order of insertion
(/repo/src/ics/valuetype/datetime.py:433).  Keys are assumed to be unique, as in every `dict`. -/
def paramsEq (a b : Params) : Bool :=
  a.length == b.length &&
    a.all fun kv => (dictGet? b kv.1).map pvalTexts == some (pvalTexts kv.2)

/-- `PeriodConverter.serialize` (/repo/src/ics/valuetype/datetime.py:408-438): the text, the parameters
and the context afterwards. -/
def periodSerialize (w : World) (s : Span) (params : Params) (ctx : Ctx) :
    Except PyErr (Str × Params × Ctx) :=
  match s.begin? with
  | none => .error .valueError
  | some b =>
    match s.dur? with
    | some d => do
      let (t, params', ctx) ← serializeDt w b params ctx
      .ok (t ++ '/' :: durationSerialize d, params', ctx)
    | none => do
      match ← w.effEnd s with
      | none => .error .valueError
      | some en => do
        let (t, params', ctx) ← serializeDt w b params ctx
        let (u, endParams, ctx) ← serializeDt w en params ctx
        if paramsEq endParams params' then .ok (t ++ '/' :: u, params', ctx)
        else .error .valueError

end Ics
