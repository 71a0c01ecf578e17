import Verif.Model.Tzinfo
import Verif.Props.ZoneText
import Verif.Props.Datetime

/-
C63: from `tzinfo` objects and names to `Timezone` objects.
-/
namespace Ics

/-! ### Helpers -/

theorem utcName_iff (s : Str) : utcName s = true ↔ upper s = "UTC".toList ∨ upper s = "ETC/UTC".toList := by
  unfold utcName
  exact decide_eq_true_iff

theorem nameFromOffset_not_utc {us : Int} (h : us ≠ 0) : utcName (nameFromOffset us) = false := by
  rw [← Bool.not_eq_true, utcName_iff]
  unfold nameFromOffset
  rw [if_neg h]
  dsimp only
  rintro (e | e)
  · have := congrArg List.length e
    simp [upper] at this
  · have := congrArg List.head? e
    simp [upper] at this

theorem notIcs_builtin {o : Int} {n : Option Str} : ∀ z, TzInfo.builtin o n ≠ .ics z := fun _ => nofun

theorem notIcs_foreign {k : TzKind} {s : Str} {b : Bool} : ∀ z, TzInfo.foreign k s b ≠ .ics z := fun _ => nofun

theorem tzFromTzinfo_utc (lookup : Str → Except PyErr TzObj) {t : TzInfo} (hi : ∀ z, t ≠ .ics z) (h : t.isUtc = true) :
    tzFromTzinfo lookup t = .ok (some utcZone) := by
  cases t with
  | ics z => exact absurd rfl (hi z)
  | builtin o n => exact if_pos h
  | foreign k s b => exact if_pos h

theorem tzFromTzinfo_other (lookup : Str → Except PyErr TzObj) {t : TzInfo} (hi : ∀ z, t ≠ .ics z) (h : t.isUtc = false) :
    tzFromTzinfo lookup t = tryConverters [fromBuiltin lookup t, fromDateutil lookup t, fromPytz t] := by
  have h' : ¬ t.isUtc = true := by rw [h]; exact Bool.false_ne_true
  cases t with
  | ics z => exact absurd rfl (hi z)
  | builtin o n => exact if_neg h'
  | foreign k s b => exact if_neg h'

theorem endsWith_iff (s t : Str) : endsWith s t = true ↔ ∃ p, s = p ++ t := by
  unfold endsWith
  rw [List.isPrefixOf_iff_prefix, List.reverse_prefix]
  exact ⟨fun ⟨p, h⟩ => ⟨p, h.symm⟩, fun ⟨p, h⟩ => ⟨p, h.symm⟩⟩

/-! ### C63: objects -/

/-- C63: a `Timezone` is what it is, and every other `tzinfo` that is UTC is `ics.UTC`, which has the offset
zero and the name UTC at all times. -/
theorem C63_utc (lookup : Str → Except PyErr TzObj) :
    (∀ z, tzFromTzinfo lookup (.ics z) = .ok (some z)) ∧
    (∀ t, (∀ z, t ≠ .ics z) → t.isUtc = true → tzFromTzinfo lookup t = .ok (some utcZone)) ∧
    ∀ occ wall fold cache, (askTz (utcZone.zone occ) .utcoffset wall fold cache).1 = .ok (.delta 0) ∧
      (askTz (utcZone.zone occ) .dst wall fold cache).1 = .ok (.delta 0) ∧
      (askTz (utcZone.zone occ) .tzname wall fold cache).1 = .ok (.name (some "UTC".toList)) :=
  ⟨fun _ => rfl, fun _ hi h => tzFromTzinfo_utc lookup hi h, fun _ _ _ _ => ⟨rfl, rfl, rfl⟩⟩

example : (TzInfo.builtin 0 (some "GMT".toList)).isUtc = true ∧ (TzInfo.foreign .pytzDst "Etc/UTC".toList false).isUtc = true ∧
    (TzInfo.foreign .other "tzutc()".toList true).isUtc = true := by decide

/-- C63: a `datetime.timezone` becomes a `Timezone` with the same offset, without daylight saving time, and
with the same name unless it is UTC.

Missing for the full claim: zones whose name says that they are UTC, although their offset is not zero, see
`C63_named_utc_fails`. -/
theorem C63_fixed_partial (lookup : Str → Except PyErr TzObj) (offset : Int) (name : Option Str)
    (hn : offset = 0 ∨ ∀ s, name = some s → upper s ≠ "UTC".toList ∧ upper s ≠ "ETC/UTC".toList) :
    ∃ z, tzFromTzinfo lookup (.builtin offset name) = .ok (some z) ∧
      (∀ occ wall fold cache, (askTz (z.zone occ) .utcoffset wall fold cache).1 = .ok (.delta offset) ∧
        (askTz (z.zone occ) .dst wall fold cache).1 = .ok (.delta 0)) ∧
      (offset ≠ 0 → ∀ s, name = some s → z.tzid = s ∧
        ∀ occ wall fold cache, (askTz (z.zone occ) .tzname wall fold cache).1 = .ok (.name (some s))) := by
  by_cases h0 : offset = 0
  · subst h0
    exact ⟨utcZone, tzFromTzinfo_utc lookup notIcs_builtin rfl, fun _ _ _ _ => ⟨rfl, rfl⟩, fun h => absurd rfl h⟩
  · have hu : (TzInfo.builtin offset name).isUtc = false := by
      unfold TzInfo.isUtc
      dsimp only
      have h1 : utcName (builtinName offset name) = false := by
        cases hnm : name with
        | none => exact nameFromOffset_not_utc h0
        | some s =>
          have := (hn.resolve_left h0) s hnm
          rw [← Bool.not_eq_true, utcName_iff]
          rintro (e | e)
          exacts [this.1 e, this.2 e]
      rw [h1, Bool.or_false]
      exact decide_eq_false h0
    refine ⟨tzFromOffset (builtinName offset name) offset, ?_, fun _ _ _ _ => ⟨rfl, rfl⟩, fun _ s hs => ?_⟩
    · rw [tzFromTzinfo_other lookup notIcs_builtin hu]
      rfl
    · subst hs
      exact ⟨rfl, fun _ _ _ _ => rfl⟩

example : (tzFromTzinfo (fun _ => .error .valueError) (.builtin (5 * exHour + exHour / 2) none)).toOption.bind
    (fun z => z.map TzObj.tzid) = some "UTC+05:30".toList ∧
  (tzFromTzinfo (fun _ => .error .valueError) (.builtin (-5 * exHour - 1) none)).toOption.bind
    (fun z => z.map TzObj.tzid) = some "UTC-05:00:00.000001".toList ∧
  (tzFromTzinfo (fun _ => .error .valueError) (.builtin (-5 * exHour) (some "EST".toList))).toOption.bind
    (fun z => z.map TzObj.tzid) = some "EST".toList := by decide +kernel

/-- C63 is false for `timezone(timedelta(hours=5), "UTC")` and the like: it becomes `ics.UTC`, whose offset
is another one. -/
theorem C63_named_utc_fails (lookup : Str → Except PyErr TzObj) (offset : Int) (s : Str) (h0 : offset ≠ 0)
    (hs : upper s = "UTC".toList ∨ upper s = "ETC/UTC".toList) :
    ∃ z, tzFromTzinfo lookup (.builtin offset (some s)) = .ok (some z) ∧
      ∀ occ wall fold cache, (askTz (z.zone occ) .utcoffset wall fold cache).1 ≠ .ok (.delta offset) := by
  refine ⟨utcZone, tzFromTzinfo_utc lookup notIcs_builtin ?_, fun _ _ _ _ e => h0 ?_⟩
  · unfold TzInfo.isUtc
    dsimp only
    rw [show builtinName offset (some s) = s from rfl, (utcName_iff s).2 hs, Bool.or_true]
  · have e : (Except.ok (TzAnswer.delta 0) : Except PyErr TzAnswer) = .ok (.delta offset) := e
    cases e
    rfl

example : upper "utc".toList = "UTC".toList ∧ 5 * exHour ≠ 0 := by decide

/-- Any `Timezone` called UTC counts as UTC: a time in it is written as if its wall clock were UTC, and is
read as another instant if its offset is not zero. -/
theorem C63_named_utc_written (W : World) (z : TzObj) (n : Nat) (hn : W.isUtc n = (TzInfo.ics z).isUtc)
    (hz : upper z.tzid = "UTC".toList ∨ upper z.tzid = "ETC/UTC".toList) (wall : Int) (fold : Bool)
    (h : 0 ≤ wall ∧ wall < maxWall) (hs : wall % 1000000 = 0) (hy : W.padYear = true ∨ 364877 * 86400000000 ≤ wall)
    (params : Params) (hp : dictGet? params "TZID".toList = none) (ctx : Ctx) :
    ∃ text, serializeDt W ⟨wall, fold, some (.zone n)⟩ params ctx = .ok (text, params, ctx) ∧
      parseDt W datetimeFormats text params ctx = .ok (⟨wall, false, some (.zone W.utc)⟩, params, ctx) := by
  obtain ⟨t, h1, h2⟩ := C16_utc_partial W wall fold n (hn.trans ((utcName_iff _).2 hz)) h hy params hp ctx
  rw [hs, Int.sub_zero] at h2
  exact ⟨_, h1, h2⟩

example : (TzInfo.ics (tzFromOffset "utc".toList (5 * exHour))).isUtc = true ∧ exLib.isUtc 2 = true := by decide

/-- C63: `None`, which means local time, is the answer for exactly these objects. -/
theorem C63_local (lookup : Str → Except PyErr TzObj) (t : TzInfo) :
    tzFromTzinfo lookup t = .ok none ↔ t.isUtc = false ∧ ∃ kind s b, t = .foreign kind s b ∧
      (kind = .tzlocal ∨ kind = .tzwinlocal ∨ kind = .pytzLocal ∨
        ∃ p, kind = .tzfile (some (p ++ "localtime".toList))) := by
  have hmap : ∀ s, (lookup s).map TzResult.zone ≠ .ok .localTime ∧ (lookup s).map TzResult.zone ≠ .ok .cont := by
    intro s
    cases lookup s <;> exact ⟨nofun, nofun⟩
  have htry : ∀ (r : Except PyErr TzObj) rs, tryConverters (r.map TzResult.zone :: rs) ≠ .ok none := by
    intro r rs e
    cases r <;> exact absurd e nofun
  constructor
  · intro h
    cases hu : t.isUtc with
    | true =>
      cases t with
      | ics z => exact absurd h nofun
      | builtin o n => rw [tzFromTzinfo_utc lookup notIcs_builtin hu] at h; exact absurd h nofun
      | foreign k s b => rw [tzFromTzinfo_utc lookup notIcs_foreign hu] at h; exact absurd h nofun
    | false =>
      refine ⟨rfl, ?_⟩
      cases t with
      | ics z => exact absurd h nofun
      | builtin o n =>
        rw [tzFromTzinfo_other lookup notIcs_builtin hu] at h
        exact absurd h nofun
      | foreign k s b =>
        rw [tzFromTzinfo_other lookup notIcs_foreign hu] at h
        refine ⟨k, s, b, rfl, ?_⟩
        cases k with
        | zoneInfo key =>
          match key with
          | none | some [] => exact absurd h nofun
          | some (c :: k) => exact absurd h (htry _ _)
        | tzfile fn =>
          match fn with
          | none | some [] => exact absurd h nofun
          | some (c :: f) =>
            have h : tryConverters [.ok .cont, if endsWith (c :: f) "localtime".toList then .ok .localTime else (lookup (c :: f)).map .zone, .ok .cont] = .ok none := h
            by_cases e : endsWith (c :: f) "localtime".toList = true
            · obtain ⟨p, hp⟩ := (endsWith_iff _ _).1 e
              rw [hp]
              exact .inr (.inr (.inr ⟨p, rfl⟩))
            · rw [if_neg e] at h
              exact absurd h (htry _ _)
        | tzwin n => exact absurd h (htry _ _)
        | tzwinlocal => exact .inr (.inl rfl)
        | tzlocal => exact .inl rfl
        | pytzLocal => exact .inr (.inr (.inl rfl))
        | tzstr | tzical | tzrange | pytzUtc | pytzDst | pytzUs | other => exact absurd h nofun
        | pytzStatic n o => exact absurd h nofun
        | pytzFixed n o => exact absurd h nofun
  · rintro ⟨hu, k, s, b, rfl, hk⟩
    rw [tzFromTzinfo_other lookup notIcs_foreign hu]
    rcases hk with rfl | rfl | rfl | ⟨p, rfl⟩
    · rfl
    · rfl
    · rfl
    · have he : endsWith (p ++ "localtime".toList) "localtime".toList = true := (endsWith_iff _ _).2 ⟨p, rfl⟩
      have : ∀ f, endsWith f "localtime".toList = true → f ≠ [] → fromDateutil lookup (.foreign (.tzfile (some f)) s b) = .ok .localTime := by
        intro f hf hne
        cases f with
        | nil => exact absurd rfl hne
        | cons c f => exact if_pos hf
      have hne : p ++ "localtime".toList ≠ [] := by simp
      rw [this _ he hne]
      rfl

example : (TzInfo.foreign (.tzfile (some "/etc/localtime".toList)) "tzfile('/etc/localtime')".toList false).isUtc = false ∧
    "/etc/localtime".toList = "/etc/".toList ++ "localtime".toList := by decide

/-- C63: an object that cannot be converted is a `ValueError`, unless looking up its name in the database
raises something else. -/
theorem C63_errors (lookup : Str → Except PyErr TzObj) (t : TzInfo) (e : PyErr) (h : tzFromTzinfo lookup t = .error e) :
    e = .valueError ∨ ∃ s, lookup s = .error e := by
  have htry : ∀ (s : Str) rs, tryConverters ((lookup s).map TzResult.zone :: rs) = .error e →
      e = .valueError ∨ ∃ s, lookup s = .error e := by
    intro s rs h
    cases hl : lookup s with
    | error e' =>
      rw [hl] at h
      have h : (Except.error e' : Except PyErr (Option TzObj)) = .error e := h
      cases h
      exact .inr ⟨s, hl⟩
    | ok z =>
      rw [hl] at h
      exact absurd h nofun
  have hv : (Except.error .valueError : Except PyErr (Option TzObj)) = .error e → e = .valueError := fun h => by
    cases h
    rfl
  cases hu : t.isUtc with
  | true =>
    cases t with
    | ics z => exact absurd h nofun
    | builtin o n => rw [tzFromTzinfo_utc lookup notIcs_builtin hu] at h; exact absurd h nofun
    | foreign k s b => rw [tzFromTzinfo_utc lookup notIcs_foreign hu] at h; exact absurd h nofun
  | false =>
    cases t with
    | ics z => exact absurd h nofun
    | builtin o n =>
      rw [tzFromTzinfo_other lookup notIcs_builtin hu] at h
      exact absurd h nofun
    | foreign k s b =>
      rw [tzFromTzinfo_other lookup notIcs_foreign hu] at h
      cases k with
      | zoneInfo key =>
        match key with
        | none | some [] => exact .inl (hv h)
        | some (c :: k) => exact htry _ _ h
      | tzfile fn =>
        match fn with
        | none | some [] => exact .inl (hv h)
        | some (c :: f) =>
          have h : tryConverters [.ok .cont, if endsWith (c :: f) "localtime".toList then .ok .localTime else (lookup (c :: f)).map .zone, .ok .cont] = .error e := h
          by_cases e' : endsWith (c :: f) "localtime".toList = true
          · rw [if_pos e'] at h
            exact absurd h nofun
          · rw [if_neg e'] at h
            exact htry _ _ h
      | tzwin n => exact htry _ _ h
      | tzstr | tzical | tzrange | pytzDst | pytzUs | other => exact .inl (hv h)
      | tzwinlocal | tzlocal | pytzLocal | pytzUtc => exact absurd h nofun
      | pytzStatic n o => exact absurd h nofun
      | pytzFixed n o => exact absurd h nofun

example : tzFromTzinfo (fun _ => .error .parseError) (.foreign .pytzDst "Europe/Berlin".toList false) =
    .error .valueError := rfl

/-- C63: zones with a name are looked up in the database: `ZoneInfo` by its key, dateutil's zones by the name
of their file or of the Windows zone. -/
theorem C63_by_name (lookup : Str → Except PyErr TzObj) (kind : TzKind) (s : Str) (hu : upper s ≠ "UTC".toList ∧ upper s ≠ "ETC/UTC".toList)
    (name : Str) (hne : name ≠ [])
    (hk : kind = .zoneInfo (some name) ∨ kind = .tzwin name ∨
      kind = .tzfile (some name) ∧ ∀ p, name ≠ p ++ "localtime".toList) :
    tzFromTzinfo lookup (.foreign kind s false) = (lookup name).map some := by
  have h : (TzInfo.foreign kind s false).isUtc = false := by
    show (false || utcName s) = false
    rw [Bool.false_or, ← Bool.not_eq_true, utcName_iff]
    rintro (e | e)
    exacts [hu.1 e, hu.2 e]
  rw [tzFromTzinfo_other lookup notIcs_foreign h]
  have htry : ∀ rs, tryConverters ((lookup name).map TzResult.zone :: rs) = (lookup name).map some := by
    intro rs
    cases lookup name <;> rfl
  cases name with
  | nil => exact absurd rfl hne
  | cons c n =>
    rcases hk with rfl | rfl | ⟨rfl, hl⟩
    · exact htry _
    · exact htry _
    · have e : ¬ endsWith (c :: n) "localtime".toList = true := fun e => by
        obtain ⟨p, hp⟩ := (endsWith_iff _ _).1 e
        exact hl p hp
      show tryConverters [.ok .cont, if endsWith (c :: n) "localtime".toList then .ok .localTime else (lookup (c :: n)).map .zone, .ok .cont] = _
      rw [if_neg e]
      exact htry _

example : upper "Europe/Berlin".toList ≠ "UTC".toList ∧ upper "Europe/Berlin".toList ≠ "ETC/UTC".toList := by decide

/-- C63: a zone of pytz with a fixed offset becomes a `Timezone` with the same name and the same offset at all
times, without daylight saving time, unless it says that it is UTC. -/
theorem C63_pytz_fixed (lookup : Str → Except PyErr TzObj) (kind : TzKind) (s name : Str) (offset : Int)
    (hk : kind = .pytzStatic name offset ∨ kind = .pytzFixed name offset)
    (hu : upper s ≠ "UTC".toList ∧ upper s ≠ "ETC/UTC".toList) :
    ∃ z, tzFromTzinfo lookup (.foreign kind s false) = .ok (some z) ∧ z.tzid = name ∧
      ∀ occ wall fold cache, (askTz (z.zone occ) .utcoffset wall fold cache).1 = .ok (.delta offset) ∧
        (askTz (z.zone occ) .dst wall fold cache).1 = .ok (.delta 0) ∧
        (askTz (z.zone occ) .tzname wall fold cache).1 = .ok (.name (some name)) := by
  have h : (TzInfo.foreign kind s false).isUtc = false := by
    show (false || utcName s) = false
    rw [Bool.false_or, ← Bool.not_eq_true, utcName_iff]
    rintro (e | e)
    exacts [hu.1 e, hu.2 e]
  refine ⟨tzFromOffset name offset, ?_, rfl, fun _ _ _ _ => ⟨rfl, rfl, rfl⟩⟩
  rw [tzFromTzinfo_other lookup notIcs_foreign h]
  rcases hk with rfl | rfl <;> rfl

example : (tzFromTzinfo (fun _ => .error .valueError) (.foreign (.pytzStatic "Etc/GMT-5".toList (5 * exHour))
    "Etc/GMT-5".toList false)).toOption.bind (fun z => z.map TzObj.tzid) = some "Etc/GMT-5".toList := by decide +kernel

/-! ### C63: names -/

/-- C63: a zone that was looked up by its name was read from the VTIMEZONE that is the third item of the
only calendar in the file for that name or, if there is none, for the name of the Windows zone. -/
theorem C63_database {V : VtzFiles} {L : Lib} {w : Wrap} {R : RRuleStr} {tzid : Str} {z : TzObj}
    (h : tzFromTzid V L w R tzid = .ok z) :
    ∃ text n a b is, (V.find tzid = some text ∨ V.find tzid = none ∧ ∃ olson, V.windowsToOlson tzid = some olson ∧ V.find olson = some text) ∧
      stringToContainers text = Gen.done [.cont n [a, b, .cont "VTIMEZONE".toList is]] ∧ loadTimezone L w R is = .ok z := by
  unfold tzFromTzid at h
  cases hf : V.file tzid with
  | none =>
    rw [hf] at h
    exact absurd h nofun
  | some text =>
    rw [hf] at h
    have hfile : V.find tzid = some text ∨ V.find tzid = none ∧ ∃ olson, V.windowsToOlson tzid = some olson ∧ V.find olson = some text := by
      unfold VtzFiles.file at hf
      cases h1 : V.find tzid with
      | some t =>
        rw [h1] at hf
        exact .inl hf
      | none =>
        rw [h1] at hf
        cases h2 : V.windowsToOlson tzid with
        | none =>
          rw [h2] at hf
          exact absurd hf nofun
        | some olson =>
          rw [h2] at hf
          dsimp only at hf
          split at hf
          · exact absurd hf nofun
          · exact .inr ⟨rfl, olson, rfl, hf⟩
    dsimp only at h
    generalize hg : stringToContainers text = g at h
    obtain ⟨items, err⟩ := g
    match items, err with
    | [], none => exact absurd h nofun
    | [], some e => exact absurd h nofun
    | [_], some e => exact absurd h nofun
    | _ :: _ :: _, _ => exact absurd h (by unfold oneOf; exact nofun)
    | [.line cl], none => exact absurd h nofun
    | [.cont n js], none =>
      match js with
      | [] => exact absurd h nofun
      | [_] => exact absurd h nofun
      | [_, _] => exact absurd h nofun
      | _ :: _ :: _ :: _ :: _ => exact absurd h nofun
      | [a, b, i] =>
        have h : (if i.name = "VTIMEZONE".toList then (match i with | .cont _ is => loadTimezone L w R is | .line _ => .error .keyError) else .error .valueError) = .ok z := h
        by_cases hn : i.name = "VTIMEZONE".toList
        · rw [if_pos hn] at h
          cases i with
          | line cl => exact absurd h nofun
          | cont m is =>
            have hm : m = "VTIMEZONE".toList := hn
            subst hm
            exact ⟨text, n, a, b, is, hfile, hg, h⟩
        · rw [if_neg hn] at h
          exact absurd h nofun

/-- A database with one file, also under the name of a Windows zone. -/
def exFiles : VtzFiles where
  find name := if name = "X/Y".toList then some (
    "BEGIN:VCALENDAR\r\nVERSION:2.0\r\nPRODID:p\r\nBEGIN:VTIMEZONE\r\nTZID:/p/X/Y\r\nBEGIN:STANDARD\r\n" ++
    "TZOFFSETFROM:+0200\r\nTZOFFSETTO:+0100\r\nRDATE:19701028T000000\r\nRDATE:19711028T000000\r\n" ++
    "END:STANDARD\r\nEND:VTIMEZONE\r\nEND:VCALENDAR\r\n").toList else none
  windowsToOlson name := if name = "Y Standard Time".toList then some "X/Y".toList else none
  builtinPrefix := "/p/".toList

example : (tzFromTzid exFiles exLib .none exRRuleStr "X/Y".toList).toOption.map
      (fun z => (z.tzid, z.observances.map ObsObj.offsetTo)) = some ("/p/X/Y".toList, [exHour]) ∧
    (tzFromTzid exFiles exLib .none exRRuleStr "Y Standard Time".toList).toOption.map TzObj.tzid = some "/p/X/Y".toList ∧
    (tzFromTzid exFiles exLib .none exRRuleStr "Z".toList).toOption.map TzObj.tzid = none := by
  refine ⟨by decide +kernel, by decide +kernel, by decide +kernel⟩

/-- C63: a zone written into a file by the library is found by the name of the file, as an equal zone.

Missing for the full claim: the zones for which C59 is false, and what dateutil makes of the rules (`f`). -/
theorem C63_file_partial {V : VtzFiles} {L : Lib} {w : Wrap} {R : RRuleStr} (hU : UtcOk L) {f : RuleSet → RuleSet} {z : TzObj}
    (h : RepTz L w R f z) (hz : WritableTz z) (w' : Wrap) (hw : match w' with | .none => True | .width _ W => 1 ≤ W)
    (name : Str) (a b : ContentLine) (hn : WritableName name) (ha : WritableTree (.line a)) (hb : WritableTree (.line b)) :
    ∃ is txt, dumpTimezone L z = .ok (.cont "VTIMEZONE".toList is) ∧
      serContainer w' false name [.line a, .line b, .cont "VTIMEZONE".toList is] = .ok txt ∧
      ∀ tzid, V.find tzid = some txt → ∃ z', tzFromTzid V L w R tzid = .ok z' ∧ EqTz f z z' := by
  obtain ⟨is, h1, h2, h3⟩ := timezone_trip hU h
  obtain ⟨txt, i, h4, h5, h6⟩ := C08_roundtrip w' hw false name [.line a, .line b, .cont "VTIMEZONE".toList is] (by
    rw [WritableTree]
    exact ⟨hn, trees_cons ha (trees_cons hb (trees_cons (h2 hz) writableTrees_nil))⟩)
  refine ⟨is, txt, h1, h4, fun tzid hf => ?_⟩
  cases i with
  | line cl =>
    rw [Item.unquote, Item.unquote] at h6
    cases h6
  | cont n js =>
    rw [Item.unquote, Item.unquote] at h6
    have hjs := (Item.cont.inj h6).2
    match js with
    | [] => simp [Item.unquotes] at hjs
    | [_] => simp [Item.unquotes] at hjs
    | [_, _] => simp [Item.unquotes] at hjs
    | _ :: _ :: _ :: _ :: _ => simp [Item.unquotes] at hjs
    | [x, y, .line l] => simp [Item.unquotes, Item.unquote] at hjs
    | [x, y, .cont m is'] =>
      simp only [Item.unquotes, Item.unquote, List.cons.injEq, and_true, Item.cont.injEq] at hjs
      obtain ⟨_, _, hm, hi⟩ := hjs
      subst hm
      obtain ⟨z', h7, h8⟩ := h3 is' hi
      refine ⟨z', ?_, h8⟩
      unfold tzFromTzid VtzFiles.file
      rw [hf]
      dsimp only
      rw [h5]
      exact h7

example : UtcOk exLib ∧ RepTz exLib .none exRRuleStr exBack (exZones 1) ∧ WritableTz (exZones 1) ∧
    WritableName "VCALENDAR".toList ∧ WritableTree (exLine "VERSION" "2.0") :=
  ⟨exLib_utc, exZones_rep, exZones_writable, exName (by decide +kernel), exLine_writable (by decide +kernel) (by decide +kernel) (by decide +kernel)⟩

/-- C63: a zone made from a fixed offset of whole seconds is written and read back as a zone that answers
every query alike, whatever rules dateutil finds. -/
theorem C63_survives {L : Lib} {w : Wrap} {R : RRuleStr} (hU : UtcOk L) (name : Str) (offset : Int) (ho : RepOffset offset)
    (rs : RuleSet) (hr : RepRules L w R epochRules rs) :
    ∃ items z', dumpTimezone L (tzFromOffset name offset) = .ok (.cont "VTIMEZONE".toList items) ∧
      loadTimezone L w R items = .ok z' ∧ z'.tzid = name ∧
      ∀ occ q wall fold cache, askTz (z'.zone occ) q wall fold cache = askTz ((tzFromOffset name offset).zone occ) q wall fold cache := by
  have hrep : RepTz L w R (fun _ => rs) (tzFromOffset name offset) := by
    refine ⟨fun o h => ?_, fun _ => nofun, fun _ => nofun, nofun, nofun, ⟨trivial, nofun⟩, ⟨trivial, fun _ => rfl⟩,
      ⟨trivial, fun _ => rfl⟩⟩
    rw [List.mem_singleton.1 h]
    exact ⟨show RepOffset 0 by unfold RepOffset; decide, ho, hr, nofun, nofun, ⟨trivial, nofun⟩, ⟨trivial, nofun⟩, ⟨trivial, nofun⟩,
      ⟨trivial, fun _ => rfl⟩⟩
  obtain ⟨items, z', h1, h2, h3⟩ := timezone_roundtrip hU hrep
  refine ⟨items, z', h1, h2, h3.tzid.symm, fun occ q wall fold cache => ?_⟩
  have hobs := h3.observances
  obtain ⟨o', os, hs, hnil, he⟩ := List.forall₂_cons_left_iff.1 hobs
  rw [List.forall₂_nil_left_iff.1 hnil] at he
  unfold TzObj.zone
  rw [he]
  have h4 := hs.offsetFrom
  have h5 := hs.offsetTo
  have h6 := hs.isDst
  have h7 := hs.tzname
  dsimp only at h4 h5 h6 h7
  show (_, _) = (_, _)
  refine Prod.ext ?_ rfl
  cases q
  · show Except.ok (TzAnswer.delta o'.offsetTo) = .ok (.delta offset)
    rw [← h5]
  · show Except.ok (TzAnswer.delta (if o'.isDst then o'.offsetTo - o'.offsetFrom else 0)) = .ok (.delta 0)
    rw [← h6]
    rfl
  · show Except.ok (TzAnswer.name o'.tzname) = .ok (.name (some name))
    rw [← h7]

/-- What dateutil makes of the lines of a fixed offset. -/
def exEpochStr : RRuleStr := fun text _ =>
  if text = "DTSTART:19700101T000000\r\nRRULE:FREQ=YEARLY;COUNT=1\r\n".toList then .ok { epochRules with rdate := [exOnset] }
  else .error .valueError

theorem exEpoch_rep : RepRules exLib .none exEpochStr epochRules { epochRules with rdate := [exOnset] } := by
  have hs : PlainTime exLib exOnset := by unfold PlainTime; decide
  have h0 : SortedDates exLib [] [] := ⟨⟨fun d h => absurd h List.not_mem_nil, List.Pairwise.nil⟩, fun _ => Iff.rfl⟩
  refine ⟨exOnset, ["FREQ=YEARLY;COUNT=1".toList], [], [], [],
    "DTSTART:19700101T000000\r\nRRULE:FREQ=YEARLY;COUNT=1\r\n".toList, _, hs, ?_, .nil,
    h0, h0, by decide, by decide +kernel, by decide +kernel, rfl, rfl, ⟨⟨fun d hd => ?_, List.pairwise_singleton _ _⟩, fun _ => Iff.rfl⟩, h0⟩
  · exact .cons ⟨rfl, by unfold NoBreak; decide, "19700101T000000".toList, by unfold NoBreak; decide, rfl⟩ .nil
  · have hd : d ∈ [exOnset] := hd
    rw [List.mem_singleton.1 hd]
    exact hs

example : UtcOk exLib ∧ RepOffset (-5 * exHour) ∧ RepRules exLib .none exEpochStr epochRules { epochRules with rdate := [exOnset] } :=
  ⟨exLib_utc, by unfold RepOffset; decide, exEpoch_rep⟩

/-! ### C63: zones of the database -/

/-- C63: `to_builtin` gives a zone of the database, and gives the same zone again if it is applied to one, if
the names in the database have the prefix. -/
theorem C63_to_builtin {V : VtzFiles} {L : Lib} {w : Wrap} {R : RRuleStr}
    (hV : ∀ t z, tzFromTzid V L w R t = .ok z → ∃ s, z.tzid = V.builtinPrefix ++ s) (z b : TzObj)
    (h : z.toBuiltin V L w R = .ok b) : b.toBuiltin V L w R = .ok b ∧ (z.isBuiltin V = true → b = z) := by
  unfold TzObj.toBuiltin at h
  by_cases hz : z.isBuiltin V = true
  · rw [if_pos hz] at h
    cases h
    exact ⟨if_pos hz, fun _ => rfl⟩
  · rw [if_neg hz] at h
    obtain ⟨s, hs⟩ := hV _ _ h
    refine ⟨if_pos ?_, fun h => absurd h hz⟩
    unfold TzObj.isBuiltin
    rw [hs, List.isPrefixOf_iff_prefix.2 (List.prefix_append _ _), Bool.or_true]

theorem exFiles_builtin (t : Str) (z : TzObj) (h : tzFromTzid exFiles exLib .none exRRuleStr t = .ok z) :
    ∃ s, z.tzid = exFiles.builtinPrefix ++ s := by
  have key : ∀ z, tzFromTzid exFiles exLib .none exRRuleStr "X/Y".toList = .ok z → z.tzid = "/p/X/Y".toList := by
    intro z h
    have : (tzFromTzid exFiles exLib .none exRRuleStr "X/Y".toList).toOption.map TzObj.tzid = some "/p/X/Y".toList := by
      decide +kernel
    rw [h] at this
    exact Option.some.inj this
  have hfile : ∀ t, exFiles.file t = none ∨ exFiles.file t = exFiles.file "X/Y".toList := by
    intro t
    unfold VtzFiles.file exFiles
    dsimp only
    by_cases h1 : t = "X/Y".toList
    · rw [h1]
      exact .inr rfl
    · by_cases h2 : t = "Y Standard Time".toList
      · rw [h2]
        exact .inr rfl
      · rw [if_neg h1, if_neg h2]
        exact .inl rfl
  rcases hfile t with e | e
  · unfold tzFromTzid at h
    rw [e] at h
    exact absurd h nofun
  · refine ⟨"X/Y".toList, key z ?_⟩
    unfold tzFromTzid at h ⊢
    rw [← e]
    exact h

example : (∀ t z, tzFromTzid exFiles exLib .none exRRuleStr t = .ok z → ∃ s, z.tzid = exFiles.builtinPrefix ++ s) ∧
    ((tzFromOffset "Y Standard Time".toList 0).toBuiltin exFiles exLib .none exRRuleStr).toOption.map TzObj.tzid =
      some "/p/X/Y".toList := ⟨exFiles_builtin, by decide +kernel⟩

end Ics
