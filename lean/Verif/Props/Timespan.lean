import Verif.Spec.Zones
import Verif.Proofs.Timespan

/-
C20-C25, C51: construction and editing of time spans, conversion of the end, of the zone and to
all-day spans.  Every theorem holds for every `Env`, i.e. for every behaviour of the time zones.
-/
namespace Ics

/-! ### C51: rounding to midnight -/

/-- C51, down. -/
theorem C51_floor (d : DT) :
    LatestMidnight d.wall d.floorDay.wall ∧ d.floorDay.tz = d.tz ∧ d.floorDay.floorDay = d.floorDay ∧
      (Midnight d.wall → d.floorDay.wall = d.wall) := by
  unfold LatestMidnight Midnight DT.floorDay dayUs
  refine ⟨⟨⟨d.wall / 86400000000, by dsimp only; omega⟩, by dsimp only; omega, ?_⟩, rfl, ?_, ?_⟩
  · rintro m ⟨q, rfl⟩ h
    dsimp only
    omega
  · dsimp only
    congr 1
    omega
  · rintro ⟨q, h⟩
    dsimp only
    omega

/-- C51 for durations: `floor_timedelta_to_days` gives the longest number of whole days that is not longer (a `Midnight` is a
multiple of a day), `ceil_timedelta_to_days` the shortest one that is not shorter; negative durations included. -/
theorem C51_days (td : Int) : LatestMidnight td (floorDays td) ∧ EarliestMidnight td (ceilDays td) := by
  unfold LatestMidnight EarliestMidnight Midnight floorDays ceilDays dayUs
  dsimp only
  refine ⟨⟨⟨td / 86400000000, by omega⟩, by omega, ?_⟩, ?_⟩
  · rintro m ⟨q, rfl⟩ h
    omega
  · split
    · exact ⟨⟨td / 86400000000, by omega⟩, by omega, fun m _ h => h⟩
    · refine ⟨⟨td / 86400000000 + 1, by omega⟩, by omega, ?_⟩
      rintro m ⟨q, rfl⟩ h
      omega

/-- Minus 36 hours are between minus two days and minus one day. -/
example : floorDays (-36 * 3600000000) = -2 * dayUs ∧ ceilDays (-36 * 3600000000) = -dayUs ∧ ceilDays dayUs = dayUs := by
  decide

/-- C51, up: the result is right, and there is a result unless the next midnight is after
9999-12-31. -/
theorem C51_ceil (e : Env) (d : DT) (hr : d.InRange) :
    (∀ x, e.ceilDay d = .ok x →
      EarliestMidnight d.wall x.wall ∧ x.tz = d.tz ∧ e.ceilDay x = .ok x) ∧
    ((∃ x, e.ceilDay d = .ok x) ↔ ∃ m, Midnight m ∧ d.wall ≤ m ∧ m < maxWall) := by
  have hc : e.ceilDay d = if d.wall % dayUs = 0 then .ok ⟨d.wall, false, d.tz⟩ else
      DT.add ⟨d.wall - d.wall % dayUs, false, d.tz⟩ dayUs := by
    unfold Env.ceilDay
    rw [e.eq_floorDay]
    simp only [decide_eq_true_eq]
    split
    · rename_i h; simp [DT.floorDay, h]
    · rfl
  have hm : ∀ x : DT, x.fold = false → Midnight x.wall → e.ceilDay x = .ok x := by
    rintro ⟨w, f, t⟩ hf ⟨q, hq⟩
    dsimp only at hf hq
    subst hf
    unfold Env.ceilDay
    rw [e.eq_floorDay]
    have : w % dayUs = 0 := mod_day.2 ⟨q, hq⟩
    simp [DT.floorDay, this]
  by_cases h : d.wall % dayUs = 0
  · rw [hc, if_pos h]
    have hq : Midnight d.wall := mod_day.1 h
    refine ⟨?_, ?_⟩
    · intro x hx
      injection hx with hx
      subst hx
      exact ⟨⟨hq, Int.le_refl _, fun m _ h => h⟩, rfl, hm _ rfl hq⟩
    · exact ⟨fun _ => ⟨_, hq, Int.le_refl _, hr.2⟩, fun _ => ⟨_, rfl⟩⟩
  · rw [hc, if_neg h]
    have hq : Midnight (d.wall - d.wall % dayUs + dayUs) := by
      apply mod_day.1; unfold dayUs; omega
    have hmin : ∀ m, Midnight m → d.wall ≤ m → d.wall - d.wall % dayUs + dayUs ≤ m := by
      rintro m ⟨q, rfl⟩ hle
      unfold dayUs at *
      omega
    refine ⟨?_, ?_⟩
    · intro x hx
      obtain ⟨h1, h2, rfl⟩ := add_ok.1 hx
      refine ⟨⟨hq, ?_, hmin⟩, rfl, hm _ rfl hq⟩
      show d.wall ≤ d.wall - d.wall % dayUs + dayUs
      unfold dayUs
      omega
    · constructor
      · rintro ⟨x, hx⟩
        obtain ⟨h1, h2, rfl⟩ := add_ok.1 hx
        exact ⟨_, hq, by unfold dayUs; omega, h2⟩
      · rintro ⟨m, hm1, hm2, hm3⟩
        have := hmin m hm1 hm2
        exact ⟨_, add_ok.2 ⟨by have := hr.1; unfold dayUs; dsimp only; omega, by dsimp only; omega, rfl⟩⟩

example : dstEnv.ceilDay ⟨dayNo 737512 + 1, true, some (.zone 1)⟩ =
    .ok ⟨dayNo 737513, false, some (.zone 1)⟩ := by decide +kernel

/-! ### C20: construction -/

/-- C20: a span comes into existence exactly under the conditions of `WellFormed`, and is then the span
asked for; otherwise an exception is raised. -/
theorem C20 (e : Env) (s : Span) (hr : s.InRange) :
    (WellFormed e s → e.mkSpan s = .ok s) ∧ (¬ WellFormed e s → ∃ err, e.mkSpan s = .error err) := by
  refine ⟨fun h => mkSpan_ok.2 ⟨(validate_ok e s hr).2 h, rfl⟩, fun h => ?_⟩
  cases hm : e.mkSpan s with
  | error err => exact ⟨err, rfl⟩
  | ok t => exact absurd ((validate_ok e s hr).1 (mkSpan_ok.1 hm).1) h

/-- The span 2020-03-28 10:00 to 2020-03-29 12:00 in a zone with a DST change in between. -/
def exSpan : Span :=
  ⟨.event, some ⟨dayNo 737511 + hours 10, false, some (.zone 1)⟩,
    some ⟨dayNo 737512 + hours 12, false, some (.zone 1)⟩, none, .second⟩

theorem exSpan_inRange : exSpan.InRange := by
  constructor <;> · intro b hb; injection hb with hb; subst hb; constructor <;> decide +kernel

theorem exSpan_wf : WellFormed dstEnv exSpan :=
  (validate_ok _ _ exSpan_inRange).1 (by decide +kernel)

/-! ### C21: histories -/

/-- The times passed to an edit are possible `datetime` objects. -/
def Edit.InRange : Edit → Prop
  | .timespan v => v.InRange
  | .begin v => ∀ d, v = some d → d.InRange
  | .end_ v => ∀ d, v = some d → d.InRange
  | _ => True

/-- What holds of every event and todo. -/
structure EntryOk (e : Env) (x : Entry) : Prop where
  wf : WellFormed e x.timespan
  inRange : x.timespan.InRange
  cls : x.tsType = .plain ∨ x.timespan.cls = x.tsType

theorem setTimespan_ok {e : Env} {v : Span} {x : Entry} (hx : EntryOk e x) (hv : v.InRange) :
    EntryOk e (e.setTimespan v x).2 := by
  unfold Env.setTimespan Env.validateTimespan
  by_cases hi : isInstance v x.tsType
  · rw [if_pos hi]
    cases h : e.validate v with
    | error err => exact hx
    | ok u =>
      refine ⟨(validate_ok e v hv).1 h, hv, ?_⟩
      simpa [isInstance] using hi
  · rw [if_neg hi]
    exact hx

theorem assign_ok {e : Env} {v : Except PyErr Span} {x : Entry} (hx : EntryOk e x)
    (hv : ∀ s, v = .ok s → s.InRange) : EntryOk e (e.assign v x).2 := by
  unfold Env.assign
  cases v with
  | error err => exact hx
  | ok s => exact setTimespan_ok hx (hv s rfl)

theorem edit_ok {e : Env} {x : Entry} {c : Edit} (hx : EntryOk e x) (hc : c.InRange) :
    EntryOk e (e.edit x c).2 := by
  have hg : Good e x.timespan.cls x.timespan := ⟨hx.wf, hx.inRange, rfl⟩
  cases c with
  | timespan v => exact setTimespan_ok hx hc
  | begin v => exact assign_ok hx fun s hs =>
      (mkSpan_good (s := { x.timespan with begin? := v }) ⟨hc, hx.inRange.2⟩ hs).inRange
  | end_ v => exact assign_ok hx fun s hs =>
      (mkSpan_good (s := { x.timespan with end? := v, dur? := none }) ⟨hx.inRange.1, hc⟩ hs).inRange
  | duration v => exact assign_ok hx fun s hs =>
      (mkSpan_good (s := { x.timespan with dur? := v, end? := none })
        ⟨hx.inRange.1, by simp⟩ hs).inRange
  | convertEnd t => exact assign_ok hx fun s hs => (convertEnd_good hg hs).inRange
  | makeAllDay => exact assign_ok hx fun s hs => (makeAllDay_good hg hs).inRange
  | unsetAllDay => exact assign_ok hx fun s hs =>
      (mkSpan_good (s := { x.timespan with prec := .other "seconds".toList }) hx.inRange hs).inRange
  | replaceTimezone tz => exact assign_ok hx fun s hs => (replaceTimezone_good hx.inRange hs).inRange
  | convertTimezone tz => exact assign_ok hx fun s hs => (convertTimezone_good hx.inRange hs).inRange

/-- C21: after any history of edits, raising or not, the time span is well-formed. -/
theorem C21_wellformed (e : Env) (todo : Bool) (b en : Option DT) (d : Option Int) (x : Entry)
    (hb : ∀ y, b = some y → y.InRange) (he : ∀ y, en = some y → y.InRange)
    (hx : e.newEntry todo b en d = .ok x) (cs : List Edit) (hc : ∀ c ∈ cs, c.InRange) :
    WellFormed e (e.edits x cs).timespan ∧
      (e.edits x cs).timespan.cls = (if todo then .todo else .event) := by
  have h0 : EntryOk e x ∧ x.tsType = if todo then .todo else .event := by
    unfold Env.newEntry at hx
    dsimp only at hx
    obtain ⟨s, hs, hx⟩ := bind_ok_iff.1 hx
    obtain ⟨-, -, hx⟩ := bind_ok_iff.1 hx
    injection hx with hx
    subst hx
    have hg := mkSpan_good (s := ⟨_, b, en, d, .second⟩) ⟨hb, he⟩ hs
    exact ⟨⟨hg.wf, hg.inRange, Or.inr hg.cls⟩, rfl⟩
  have hstep : ∀ (cs : List Edit) (x : Entry), EntryOk e x → (∀ c ∈ cs, c.InRange) →
      EntryOk e (e.edits x cs) ∧ (e.edits x cs).tsType = x.tsType := by
    intro cs
    induction cs with
    | nil => intro x hx _; exact ⟨hx, rfl⟩
    | cons c cs ih =>
      intro x hx hc
      have h1 := edit_ok hx (hc c (by simp))
      obtain ⟨h2, h3⟩ := ih _ h1 (fun c' h => hc c' (by simp [h]))
      refine ⟨h2, h3.trans ?_⟩
      have hs : ∀ v, (e.setTimespan v x).2.tsType = x.tsType := by
        intro v; unfold Env.setTimespan; split <;> rfl
      have ha : ∀ v, (e.assign v x).2.tsType = x.tsType := by
        intro v; unfold Env.assign; split
        · rfl
        · exact hs _
      cases c <;> first | exact hs _ | exact ha _
  obtain ⟨h1, h2⟩ := hstep cs x h0.1 hc
  refine ⟨h1.wf, ?_⟩
  have h3 := h1.cls
  rw [h2, h0.2] at h3
  cases todo
  · rcases h3 with h3 | h3
    · cases h3
    · exact h3
  · rcases h3 with h3 | h3
    · cases h3
    · exact h3

/-- C21: an edit that raises changes nothing. -/
theorem C21_atomic (e : Env) (x : Entry) (c : Edit) (err : PyErr) (h : (e.edit x c).1 = .error err) :
    (e.edit x c).2 = x := by
  have hs : ∀ v, (e.setTimespan v x).1 = .error err → (e.setTimespan v x).2 = x := by
    intro v
    unfold Env.setTimespan
    cases e.validateTimespan x.tsType v with
    | error err => intro _; rfl
    | ok u => intro h; cases h
  have ha : ∀ v, (e.assign v x).1 = .error err → (e.assign v x).2 = x := by
    intro v
    unfold Env.assign
    cases v with
    | error err => intro _; rfl
    | ok v => exact hs v
  cases c <;> first | exact hs _ h | exact ha _ h

/-- C21: what an edit that does not raise does.  Setting the end drops the duration and vice versa;
nothing else changes. -/
theorem C21_effect (e : Env) (x : Entry) :
    (∀ v, (e.edit x (.begin v)).1 = .ok () →
      (e.edit x (.begin v)).2 = { x with timespan := { x.timespan with begin? := v } }) ∧
    (∀ v, (e.edit x (.end_ v)).1 = .ok () →
      (e.edit x (.end_ v)).2 = { x with timespan := { x.timespan with end? := v, dur? := none } }) ∧
    (∀ v, (e.edit x (.duration v)).1 = .ok () →
      (e.edit x (.duration v)).2 = { x with timespan := { x.timespan with end? := none, dur? := v } }) := by
  have key : ∀ s : Span, (e.assign (e.mkSpan s) x).1 = .ok () →
      (e.assign (e.mkSpan s) x).2 = { x with timespan := s } := by
    intro s
    unfold Env.assign
    cases hm : e.mkSpan s with
    | error err => intro h; cases h
    | ok t =>
      have := (mkSpan_ok.1 hm).2
      subst this
      dsimp only
      unfold Env.setTimespan
      cases e.validateTimespan x.tsType s with
      | error err => intro h; cases h
      | ok u => intro _; rfl
  exact ⟨fun v => key _, fun v => key _, fun v => key _⟩

example : ∃ x, dstEnv.newEntry false exSpan.begin? exSpan.end? none = .ok x ∧
    (dstEnv.edits x [.makeAllDay, .begin (some ⟨1, false, none⟩), .duration (some (dayNo 3))]).timespan =
      ⟨.event, some ⟨dayNo 737511, false, none⟩, none, some (dayNo 3), .day⟩ ∧
    (dstEnv.edit x (.end_ (some ⟨0, false, none⟩))).1 = .error .typeError :=
  ⟨⟨.event, exSpan, none⟩, by decide +kernel, by decide +kernel, by decide +kernel⟩

/-! ### C22: begin + duration = end -/

/-- C22 for spans whose end, if given, has the zone object of the begin: the effective end is `begin +
duration` (Python's `==`; the `fold` of a given end is not looked at) and the duration is the
difference of the wall clocks.  Missing: ends in another zone, see `C22_fails`. -/
theorem C22_partial (e : Env) (s : Span) (b en : DT) (d : Int) (hb : s.begin? = some b)
    (hz : ∀ x, s.end? = some x → x.tz = b.tz) (hx : s.end? = none ∨ s.dur? = none)
    (hd : e.effDur s = .ok (some d)) (he : e.effEnd s = .ok (some en)) :
    en.tz = b.tz ∧ en.wall = b.wall + d ∧ e.eq en ⟨b.wall + d, false, b.tz⟩ = true ∧
      e.sub en b = .ok d := by
  have key : en.tz = b.tz ∧ en.wall = b.wall + d := by
    unfold Env.effEnd at he
    cases hen : s.end? with
    | some x =>
      have hdn : s.dur? = none := by rcases hx with h | h <;> simp_all
      rw [hen] at he
      injection he with he; injection he with he; subst he
      have ht := hz _ hen
      rw [e.effDur_eq s hb hen hdn (by rw [ht])] at hd
      injection hd with hd; injection hd with hd
      unfold Env.extent at hd
      rw [if_pos ht.symm] at hd
      exact ⟨ht, by omega⟩
    | none =>
      rw [hen, hb, hd] at he
      dsimp only at he
      cases ha : b.add d with
      | error x => rw [ha] at he; cases he
      | ok y =>
        rw [ha] at he; injection he with he; injection he with he; subst he
        obtain ⟨-, -, rfl⟩ := add_ok.1 ha
        exact ⟨rfl, rfl⟩
  refine ⟨key.1, key.2, ?_, ?_⟩
  · rw [e.eq_sameTz (b := ⟨b.wall + d, false, b.tz⟩) key.1]; simp [key.2]
  · unfold Env.sub; rw [if_pos key.1]; congr 1; omega

/-- C22: there is an effective end whenever there is a begin and a duration, unless it would lie after
9999-12-31. -/
theorem C22_exists (e : Env) (s : Span) (b : DT) (d : Int) (hb : s.begin? = some b)
    (hd : e.effDur s = .ok (some d)) (hr : 0 ≤ b.wall + d ∧ b.wall + d < maxWall) :
    ∃ en, e.effEnd s = .ok (some en) := by
  unfold Env.effEnd
  cases s.end? with
  | some x => exact ⟨x, rfl⟩
  | none =>
    rw [hb, hd]
    dsimp only
    rw [add_ok.2 ⟨hr.1, hr.2, rfl⟩]
    exact ⟨_, rfl⟩

/-- C22: the duration of an event without end and duration is one day if it is all-day, otherwise
zero. -/
theorem C22_default (e : Env) (s : Span) (hc : s.cls = .event) (h1 : s.end? = none) (h2 : s.dur? = none) :
    e.effDur s = .ok (some (if s.prec = .day then 24 * 60 * 60 * 1000000 else 0)) := by
  unfold Env.effDur
  rw [h1, h2, hc]
  by_cases h : s.prec = .day <;> simp [Span.isAllDay, h, dayUs]

example : dstEnv.effDur exSpan = .ok (some (hours 26)) ∧
    dstEnv.effEnd exSpan = .ok (some ⟨dayNo 737512 + hours 12, false, some (.zone 1)⟩) := by decide +kernel

/-- C22 is false in general: from 2020-03-28 10:00 in Berlin to 2020-03-29 10:00 UTC are 25 hours,
and 25 hours later Python's clock in Berlin shows an instant one hour before that end. -/
theorem C22_fails : ∃ (s : Span) (b en x : DT) (d : Int), WellFormed dstEnv s ∧ s.begin? = some b ∧
    dstEnv.effDur s = .ok (some d) ∧ dstEnv.effEnd s = .ok (some en) ∧ b.add d = .ok x ∧
    dstEnv.eq en x = false ∧ dstEnv.instant en ≠ dstEnv.instant x := by
  refine ⟨⟨.event, some ⟨dayNo 737511 + hours 10, false, some (.zone 1)⟩,
    some ⟨dayNo 737512 + hours 10, false, some (.zone 0)⟩, none, .second⟩,
    ⟨dayNo 737511 + hours 10, false, some (.zone 1)⟩,
    ⟨dayNo 737512 + hours 10, false, some (.zone 0)⟩,
    ⟨dayNo 737512 + hours 11, false, some (.zone 1)⟩, hours 25, ?_, rfl,
    by decide +kernel, by decide +kernel, by decide +kernel, by decide +kernel, by decide +kernel⟩
  refine (validate_ok _ _ ⟨?_, ?_⟩).1 (by decide +kernel)
  · intro b hb; injection hb with hb; subst hb; constructor <;> decide +kernel
  · intro b hb; injection hb with hb; subst hb; constructor <;> decide +kernel

/-! ### C23: conversion of the end -/

/-- C23, from end to duration, for a known precision and an end in the zone of the begin: begin,
precision and duration are kept; the effective end has the same wall clock and zone (so Python calls
it equal) but its `fold` is reset; converting back gives the span with that end. -/
theorem C23_to_duration_partial (e : Env) (s : Span) (b en : DT) (hw : WellFormed e s) (hr : s.InRange)
    (hb : s.begin? = some b) (he : s.end? = some en) (hz : en.tz = b.tz)
    (hp : s.prec = .day ∨ s.prec = .second) :
    ∃ t, e.convertEnd s .duration = .ok t ∧ t = { s with end? := none, dur? := some (en.wall - b.wall) } ∧
      t.endRepr = .duration ∧ e.effDur t = e.effDur s ∧
      e.effEnd t = .ok (some { en with fold := false }) ∧
      e.convertEnd t .end_ = .ok { s with end? := some { en with fold := false } } := by
  have hd : s.dur? = none := by rcases hw.notBoth with h | h <;> simp_all
  have hx : e.extent b en = en.wall - b.wall := by unfold Env.extent; rw [if_pos hz.symm]
  have hrep : s.endRepr = .end_ := by simp [Span.endRepr, hd, he]
  have hpr : PreciseTo s.prec (en.wall - b.wall) := by
    by_cases h0 : e.extent b en = 0
    · rw [← hx, h0]
      rcases hp with hp | hp
      · exact ⟨_, 0, 0, Or.inl ⟨hp, rfl⟩, by omega, by omega, by omega⟩
      · exact ⟨_, 0, 0, Or.inr ⟨hp, rfl⟩, by omega, by omega, by omega⟩
    · rw [← hx]; exact hw.precise b en hb he h0
  have hw' : WellFormed e { s with end? := none, dur? := some (en.wall - b.wall) } := by
    constructor
    · simp
    · simp
    · simp
    · simp [hb]
    · simp
    · intro d h; injection h with h; subst h; rw [← hx]; exact hw.order b en hb he
    · intro hday d h; exact hw.midnights hday d (h.elim Or.inl (by simp))
    · simp
    · intro hday d h; injection h with h; subst h; rw [← hx]; exact hw.oneDay hday b en hb he
    · simp
    · intro d h; injection h with h; subst h; exact hpr
  have hm : e.mkSpan { s with end? := none, dur? := some (en.wall - b.wall) } =
      .ok { s with end? := none, dur? := some (en.wall - b.wall) } :=
    mkSpan_of_wf ⟨hr.1, by simp⟩ hw'
  have hed : e.effDur s = .ok (some (en.wall - b.wall)) := by
    rw [e.effDur_eq s hb he hd (by rw [hz]), hx]
  have hee : e.effEnd { s with end? := none, dur? := some (en.wall - b.wall) } =
      .ok (some { en with fold := false }) := by
    unfold Env.effEnd Env.effDur
    dsimp only
    rw [hb]
    dsimp only
    have ha : b.add (en.wall - b.wall) = .ok { en with fold := false } := by
      have := hr.2 en he
      refine add_ok.2 ⟨?_, ?_, ?_⟩
      · have := this.1; omega
      · have := this.2; omega
      · rw [← hz]; congr 1; omega
    rw [ha]
  refine ⟨_, ?_, rfl, rfl, ?_, hee, ?_⟩
  · unfold Env.convertEnd
    simp only [hrep, reduceCtorEq, and_true, and_false, false_or, or_false, if_false, if_true,
      false_and, hed, bind, Except.bind]
    exact hm
  · rw [hed]; rfl
  · unfold Env.convertEnd
    have hrep' : Span.endRepr { s with end? := none, dur? := some (en.wall - b.wall) } = .duration := rfl
    simp only [hrep', reduceCtorEq, and_true, and_false, false_and, or_false, if_false, true_or,
      if_true, hee, bind, Except.bind]
    have hs : ({ s with end? := some { en with fold := false } } : Span) =
        { s with end? := some { en with fold := false }, dur? := none } := by rw [hd]
    rw [hs]
    refine mkSpan_of_wf ⟨hr.1, ?_⟩ ?_
    · intro x hx; injection hx with hx; subst hx; exact hr.2 en he
    · have hx' : ∀ b', s.begin? = some b' → e.extent b' { en with fold := false } = e.extent b' en := by
        intro b' hb'
        have : b' = b := by rw [hb] at hb'; injection hb' with h; exact h.symm
        subst this
        unfold Env.extent
        rw [if_pos hz.symm, if_pos hz.symm]
      constructor
      · intro b' en' h1 h2; injection h2 with h2; subst h2; exact hw.kinds b' en h1 he
      · intro b' en' h1 h2; injection h2 with h2; subst h2
        rw [hx' b' h1]; exact hw.order b' en h1 he
      · simp
      · simp
      · intro hc _; rw [hb]; simp
      · simp
      · rintro hday x (h | h)
        · exact hw.midnights hday x (Or.inl h)
        · injection h with h; subst h; exact hw.midnights hday en (Or.inr he)
      · intro hday b' en' h1 h2; injection h2 with h2; subst h2
        rw [hx' b' h1]; exact hw.oneDay hday b' en h1 he
      · simp
      · intro b' en' h1 h2; injection h2 with h2; subst h2
        rw [hx' b' h1]; exact hw.precise b' en h1 he
      · simp

/-- C23, from duration to end, if the end exists as a `datetime` and is a midnight for an all-day span:
nothing observable changes, and converting back restores the span. -/
theorem C23_to_end_partial (e : Env) (s : Span) (b : DT) (d : Int) (hw : WellFormed e s) (hr : s.InRange)
    (hb : s.begin? = some b) (hd : s.dur? = some d) (hmax : b.wall + d < maxWall)
    (hday : s.prec = .day → Midnight d) :
    ∃ t, e.convertEnd s .end_ = .ok t ∧
      t = { s with end? := some ⟨b.wall + d, false, b.tz⟩, dur? := none } ∧
      t.endRepr = .end_ ∧ e.effEnd t = e.effEnd s ∧ e.effDur t = e.effDur s ∧
      e.convertEnd t .duration = .ok s := by
  have he : s.end? = none := by rcases hw.notBoth with h | h <;> simp_all
  have h0 := hw.durNonneg d hd
  have hrb := hr.1 b hb
  have ha : b.add d = .ok ⟨b.wall + d, false, b.tz⟩ :=
    add_ok.2 ⟨by have := hrb.1; omega, hmax, rfl⟩
  have hee : e.effEnd s = .ok (some ⟨b.wall + d, false, b.tz⟩) := by
    unfold Env.effEnd Env.effDur
    rw [he, hb, hd]
    dsimp only
    rw [ha]
  have hx : ∀ b', s.begin? = some b' → e.extent b' ⟨b.wall + d, false, b.tz⟩ = d ∧ b' = b := by
    intro b' hb'
    have : b' = b := by rw [hb] at hb'; injection hb' with h; exact h.symm
    subst this
    unfold Env.extent
    rw [if_pos rfl]
    dsimp only
    exact ⟨by omega, rfl⟩
  have hr' : Span.InRange { s with end? := some ⟨b.wall + d, false, b.tz⟩, dur? := none } :=
    ⟨hr.1, fun x h => by injection h with h; subst h; exact add_inRange ha⟩
  have hw' : WellFormed e { s with end? := some ⟨b.wall + d, false, b.tz⟩, dur? := none } := by
    constructor
    · intro b' en h1 h2; injection h2 with h2; subst h2; rw [(hx b' h1).2]
    · intro b' en h1 h2; injection h2 with h2; subst h2; rw [(hx b' h1).1]; exact h0
    · simp
    · simp
    · intro _ _; rw [hb]; simp
    · simp
    · rintro hp x (h | h)
      · exact hw.midnights hp x (Or.inl h)
      · injection h with h; subst h
        obtain ⟨h1, q, h2⟩ := hw.midnights hp b (Or.inl hb)
        obtain ⟨q', h3⟩ := hday hp
        exact ⟨h1, q + q', by dsimp only; omega⟩
    · intro hp b' en h1 h2; injection h2 with h2; subst h2; rw [(hx b' h1).1]
      exact hw.oneDayDur hp d hd
    · simp
    · intro b' en h1 h2 _; injection h2 with h2; subst h2; rw [(hx b' h1).1]
      exact hw.preciseDur d hd
    · simp
  have hrep : s.endRepr = .duration := by simp [Span.endRepr, hd]
  have hed : e.effDur { s with end? := some ⟨b.wall + d, false, b.tz⟩, dur? := none } = .ok (some d) := by
    have := e.effDur_eq { s with end? := some ⟨b.wall + d, false, b.tz⟩, dur? := none } hb rfl rfl Iff.rfl
    rw [this, (hx b hb).1]
  refine ⟨_, ?_, rfl, rfl, ?_, ?_, ?_⟩
  · unfold Env.convertEnd
    simp only [hrep, reduceCtorEq, and_true, and_false, false_and, or_false, if_false, true_or,
      if_true, hee, bind, Except.bind]
    exact mkSpan_of_wf hr' hw'
  · rw [hee]; rfl
  · rw [hed]; unfold Env.effDur; rw [hd]
  · unfold Env.convertEnd
    have hrep' : Span.endRepr { s with end? := some ⟨b.wall + d, false, b.tz⟩, dur? := none } = .end_ := rfl
    simp only [hrep', reduceCtorEq, and_true, and_false, false_or, or_false, if_false, if_true,
      false_and, hed, bind, Except.bind]
    have hs : ({ s with end? := none, dur? := some d } : Span) = s := by
      rcases s with ⟨c, b, en, d', p⟩
      dsimp only at he hd
      subst he hd
      rfl
    refine mkSpan_ok.2 ⟨?_, hs⟩
    rw [hs]
    exact (validate_ok e s hr).2 hw

example : dstEnv.convertEnd exSpan .duration =
    .ok { exSpan with end? := none, dur? := some (hours 26) } := by decide +kernel

/-- C23 is false for an end with `fold = 1`: converting to a duration moves the end from the second
02:30 in Berlin to the first. -/
theorem C23_fold_fails : ∃ (s t : Span) (x y : DT), dstEnv.mkSpan s = .ok s ∧
    dstEnv.convertEnd s .duration = .ok t ∧ dstEnv.effEnd s = .ok (some x) ∧
    dstEnv.effEnd t = .ok (some y) ∧ dstEnv.instant y = dstEnv.instant x - hours 1 := by
  refine ⟨⟨.event, some ⟨dayNo 737722, false, some (.zone 1)⟩,
    some ⟨dayNo 737722 + hours 2 + 1800000000, true, some (.zone 1)⟩, none, .second⟩,
    ⟨.event, some ⟨dayNo 737722, false, some (.zone 1)⟩, none,
      some (hours 2 + 1800000000), .second⟩,
    ⟨dayNo 737722 + hours 2 + 1800000000, true, some (.zone 1)⟩,
    ⟨dayNo 737722 + hours 2 + 1800000000, false, some (.zone 1)⟩, ?_⟩
  decide +kernel

/-- C23 is false for an all-day span whose duration exceeds whole days by up to half a second: it
cannot be converted. -/
theorem C23_fraction_fails : ∃ s : Span, dstEnv.mkSpan s = .ok s ∧
    dstEnv.convertEnd s .end_ = .error .valueError :=
  ⟨⟨.event, some ⟨dayNo 737722, false, none⟩, none, some (dayNo 1 + 300000), .day⟩, by decide +kernel⟩

/-- C23 is false for the precision `"seconds"` that `unset_all_day` sets. -/
theorem C23_unset_all_day_fails : ∃ s : Span, dstEnv.mkSpan s = .ok s ∧ s.endRepr = .end_ ∧
    dstEnv.convertEnd s .duration = .error .keyError :=
  ⟨⟨.event, some ⟨dayNo 737722, false, none⟩, some ⟨dayNo 737722, false, none⟩, none,
    .other "seconds".toList⟩, by decide +kernel⟩

/-! ### C24: make_all_day -/

/-- The earliest midnight that is not before `w` and later than `lo`. -/
def EarliestMidnightAfter (lo w m : Int) : Prop :=
  Midnight m ∧ w ≤ m ∧ lo < m ∧ ∀ m', Midnight m' → w ≤ m' → lo < m' → m ≤ m'

theorem effDur_nonneg {e : Env} {s : Span} {d : Int} (hw : WellFormed e s)
    (h : e.effDur s = .ok (some d)) : 0 ≤ d := by
  unfold Env.effDur at h
  cases hd : s.dur? with
  | some x =>
    rw [hd] at h; injection h with h; injection h with h; subst h; exact hw.durNonneg _ hd
  | none =>
    rw [hd] at h
    dsimp only at h
    have hdef : (match s.cls with
        | .event => Except.ok (some (if s.isAllDay = true then dayUs else 0))
        | _ => (Except.ok none : Except PyErr (Option Int))) = .ok (some d) → 0 ≤ d := by
      intro h
      split at h
      · injection h with h; injection h with h; subst h; split <;> decide
      · cases h
    cases hen : s.end? with
    | none => rw [hen] at h; exact hdef h
    | some en =>
      cases hb : s.begin? with
      | none => rw [hen, hb] at h; exact hdef h
      | some b =>
        rw [hen, hb] at h
        dsimp only at h
        rw [e.sub_eq, if_pos (hw.kinds b en hb hen).symm] at h
        injection h with h; injection h with h; subst h
        exact hw.order b en hb hen

theorem effEnd_dur {e : Env} {s : Span} {b en : DT} (hb : s.begin? = some b)
    (hx : s.end? = none ∨ s.dur? = none) (he : e.effEnd s = .ok (some en)) (hz : en.tz = b.tz) :
    ∃ d, e.effDur s = .ok (some d) := by
  unfold Env.effEnd at he
  cases hen : s.end? with
  | some x =>
    rw [hen] at he
    injection he with he; injection he with he; subst he
    have hd : s.dur? = none := by rcases hx with h | h <;> simp_all
    exact ⟨_, e.effDur_eq s hb hen hd (by rw [hz])⟩
  | none =>
    rw [hen, hb] at he
    dsimp only at he
    cases h : e.effDur s with
    | error x => rw [h] at he; cases he
    | ok o =>
      cases o with
      | none => rw [h] at he; cases he
      | some d => exact ⟨d, rfl⟩

/-- C24 for a span with begin and effective end in the same zone (events without explicit end
included), unless the end would lie after 9999-12-31: `make_all_day` succeeds; the result covers the
span by the fewest whole days, has no zone, keeps an explicit representation of the end, and
making it all-day again changes nothing. -/
theorem C24_partial (e : Env) (s : Span) (b en : DT) (hw : WellFormed e s) (hr : s.InRange)
    (hp : s.prec ≠ .day) (hb : s.begin? = some b) (he : e.effEnd s = .ok (some en)) (hz : en.tz = b.tz)
    (hmax : en.wall ≤ maxWall - 24 * 60 * 60 * 1000000) (hmaxb : b.wall < maxWall - 24 * 60 * 60 * 1000000) :
    ∃ (t : Span) (B E : Int), e.makeAllDay s = .ok t ∧ t.prec = .day ∧ t.cls = s.cls ∧
      t.begin? = some ⟨B, false, none⟩ ∧ e.effEnd t = .ok (some ⟨E, false, none⟩) ∧
      LatestMidnight b.wall B ∧ EarliestMidnightAfter B en.wall E ∧
      (s.dur? ≠ none → t.endRepr = .duration) ∧ (s.dur? = none → t.endRepr = .end_) ∧
      e.makeAllDay t = .ok t := by
  obtain ⟨d, hd⟩ := effEnd_dur hb hw.notBoth he hz
  have hd0 := effDur_nonneg hw hd
  have hle : b.wall ≤ en.wall := by
    have h := C22_partial e s b en d hb ?_ hw.notBoth hd he
    · have := h.2.1; omega
    · intro x hx
      unfold Env.effEnd at he
      rw [hx] at he
      injection he with he; injection he with he; subst he; exact hz
  have hrb := hr.1 b hb
  have hre := effEnd_inRange hr he
  have hfl := (C51_floor b).1
  -- the rounded end
  obtain ⟨c, hc⟩ : ∃ c, e.ceilDay en = .ok c := by
    refine (C51_ceil e en hre).2.2 ⟨maxWall - 24 * 60 * 60 * 1000000, ⟨3652058, by decide⟩, hmax, by omega⟩
  obtain ⟨⟨hcm, hcle, hcmin⟩, hctz, -⟩ := (C51_ceil e en hre).1 c hc
  have hcf : c.fold = false := by
    unfold Env.ceilDay at hc
    split at hc
    · injection hc with hc; subst hc; rfl
    · obtain ⟨-, -, rfl⟩ := add_ok.1 hc; rfl
  generalize hB : b.floorDay.wall = B at hfl
  have hbf : b.floorDay.replaceTz none = ⟨B, false, none⟩ := by
    rw [← hB]; rfl
  obtain ⟨hBm, hBle, hBmax⟩ := hfl
  have hBc : B ≤ c.wall := by omega
  have hcb : c.wall ≤ maxWall - 24 * 60 * 60 * 1000000 := hcmin _ ⟨3652058, by decide⟩ hmax
  have hB0 : 0 ≤ B := hBmax 0 ⟨0, by omega⟩ hrb.1
  obtain ⟨E, hE, hEspec, hEmax⟩ : ∃ E, e.allDayEnd (some ⟨B, false, none⟩) en = .ok ⟨E, false, none⟩ ∧
      EarliestMidnightAfter B en.wall E ∧ E < maxWall := by
    unfold Env.allDayEnd
    rw [hc]
    simp only [bind, Except.bind]
    have heq : e.eq (c.replaceTz none) ⟨B, false, none⟩ = decide (c.wall = B) := by
      exact e.eq_sameTz (a := c.replaceTz none) (b := ⟨B, false, none⟩) rfl
    rw [heq]
    by_cases h : c.wall = B
    · refine ⟨B + dayUs, ?_, ?_, ?_⟩
      · rw [if_pos (by simp [h])]
        refine add_ok.2 ⟨?_, ?_, ?_⟩
        · show 0 ≤ c.wall + dayUs
          rw [h]; unfold dayUs; omega
        · show c.wall + dayUs < maxWall
          rw [h]; unfold dayUs; omega
        · show _ = (⟨c.wall + dayUs, false, none⟩ : DT)
          rw [h]
      · obtain ⟨q, hq⟩ := hBm
        refine ⟨⟨q + 1, ?_⟩, ?_, ?_, ?_⟩
        · unfold dayUs; omega
        · unfold dayUs; omega
        · unfold dayUs; omega
        · rintro m ⟨q', hq'⟩ h1 h2
          unfold dayUs; omega
      · unfold dayUs; omega
    · refine ⟨c.wall, ?_, ?_, ?_⟩
      · rw [if_neg (by simp [h])]
        congr 1
        rcases c with ⟨w, f, t⟩
        dsimp only at hcf
        subst hcf
        rfl
      · exact ⟨hcm, hcle, by omega, fun m h1 h2 _ => hcmin m h1 h2⟩
      · omega
  obtain ⟨hEm, hEle, hElt, hEmin⟩ := hEspec
  have hdiff : ∃ q : Int, E - B = q * (24 * 60 * 60 * 1000000) ∧ 24 * 60 * 60 * 1000000 ≤ E - B := by
    obtain ⟨q1, h1⟩ := hBm
    obtain ⟨q2, h2⟩ := hEm
    exact ⟨q2 - q1, by omega, by omega⟩
  obtain ⟨q, hq1, hq2⟩ := hdiff
  have hBin : DT.InRange ⟨B, false, none⟩ := ⟨hB0, by dsimp only; omega⟩
  have hEin : DT.InRange ⟨E, false, none⟩ := ⟨by dsimp only; omega, hEmax⟩
  have hall : e.allDayEnd? s = .ok (some ⟨E, false, none⟩) := by
    unfold Env.allDayEnd?
    rw [he, hb]
    simp only [bind, Except.bind, Option.map_some, hbf, hE]
  have hmk : e.makeAllDay s = e.makeAllDayFrom s (some ⟨B, false, none⟩) (some ⟨E, false, none⟩) := by
    unfold Env.makeAllDay
    rw [if_neg (by simpa [Span.isAllDay] using hp), hall, hb]
    simp only [bind, Except.bind, Option.map_some, hbf]
  have hidem : ∀ t : Span, t.prec = .day → e.makeAllDay t = .ok t := by
    intro t ht
    unfold Env.makeAllDay
    rw [if_pos (by simpa [Span.isAllDay] using ht)]
  cases hdur : s.dur? with
  | some d' =>
    have hrep : s.endRepr = .duration := by simp [Span.endRepr, hdur]
    have hsub : e.sub ⟨E, false, none⟩ ⟨B, false, none⟩ = .ok (E - B) := rfl
    have hm : e.makeAllDayFrom s (some ⟨B, false, none⟩) (some ⟨E, false, none⟩) =
        .ok { s with begin? := some ⟨B, false, none⟩, end? := none, dur? := some (E - B), prec := .day } := by
      unfold Env.makeAllDayFrom
      rw [if_pos hrep]
      dsimp only
      rw [hsub]
      refine mkSpan_of_wf ⟨?_, by simp⟩ ?_
      · intro x hx; injection hx with hx; subst hx; exact hBin
      · constructor
        · simp
        · simp
        · simp
        · simp
        · simp
        · intro d h; injection h with h; subst h; omega
        · rintro - x (h | h)
          · injection h with h; subst h; exact ⟨rfl, hBm⟩
          · cases h
        · simp
        · intro _ d h; injection h with h; subst h; exact hq2
        · simp
        · intro d h; injection h with h; subst h
          exact ⟨_, q, 0, Or.inl ⟨rfl, rfl⟩, by omega, by omega, by omega⟩
    refine ⟨_, B, E, hmk.trans hm, rfl, rfl, rfl, ?_, ⟨hBm, hBle, hBmax⟩, ⟨hEm, hEle, hElt, hEmin⟩,
      fun _ => rfl, fun h => by simp at h, hidem _ rfl⟩
    unfold Env.effEnd Env.effDur
    dsimp only
    rw [add_ok.2 ⟨by dsimp only; omega, by dsimp only; omega, rfl⟩]
    dsimp only
    congr 3
    omega
  | none =>
    have hrep : s.endRepr ≠ .duration := by
      unfold Span.endRepr; rw [hdur]; simp; split <;> simp
    have hx : e.extent ⟨B, false, none⟩ ⟨E, false, none⟩ = E - B := rfl
    have hm : e.makeAllDayFrom s (some ⟨B, false, none⟩) (some ⟨E, false, none⟩) =
        .ok { s with begin? := some ⟨B, false, none⟩, end? := some ⟨E, false, none⟩, dur? := none, prec := .day } := by
      unfold Env.makeAllDayFrom
      rw [if_neg hrep]
      refine mkSpan_of_wf ⟨?_, ?_⟩ ?_
      · intro x hx; injection hx with hx; subst hx; exact hBin
      · intro x hx; injection hx with hx; subst hx; exact hEin
      · constructor
        · intro x y h1 h2; injection h1 with h1; injection h2 with h2; subst h1 h2; exact Iff.rfl
        · intro x y h1 h2; injection h1 with h1; injection h2 with h2; subst h1 h2; rw [hx]; omega
        · simp
        · simp
        · simp
        · simp
        · rintro - x (h | h)
          · injection h with h; subst h; exact ⟨rfl, hBm⟩
          · injection h with h; subst h; exact ⟨rfl, hEm⟩
        · intro _ x y h1 h2; injection h1 with h1; injection h2 with h2; subst h1 h2; rw [hx]; exact hq2
        · simp
        · intro x y h1 h2 _; injection h1 with h1; injection h2 with h2; subst h1 h2; rw [hx]
          exact ⟨_, q, 0, Or.inl ⟨rfl, rfl⟩, by omega, by omega, by omega⟩
        · simp
    exact ⟨_, B, E, hmk.trans hm, rfl, rfl, rfl, rfl, ⟨hBm, hBle, hBmax⟩, ⟨hEm, hEle, hElt, hEmin⟩,
      fun h => by simp at h, fun _ => rfl, hidem _ rfl⟩

example : dstEnv.makeAllDay exSpan = .ok ⟨.event, some ⟨dayNo 737511, false, none⟩,
    some ⟨dayNo 737513, false, none⟩, none, .day⟩ := by decide +kernel

/-- C24 is false on the last day of the calendar: rounding up overflows. -/
theorem C24_fails : ∃ s : Span, dstEnv.mkSpan s = .ok s ∧ dstEnv.makeAllDay s = .error .overflowError :=
  ⟨⟨.event, some ⟨maxWall - hours 2, false, none⟩, some ⟨maxWall - hours 1, false, none⟩, none, .second⟩,
    by decide +kernel⟩

/-! ### C25: time zones -/

/-- C25: both operations refuse all-day spans. -/
theorem C25_all_day (e : Env) (s : Span) (z : Option Tz) (h : s.prec = .day) :
    e.replaceTimezone s z = .error .valueError ∧ e.convertTimezone s z = .error .valueError := by
  have h' : s.isAllDay = true := by simpa [Span.isAllDay] using h
  unfold Env.replaceTimezone Env.convertTimezone
  rw [if_pos h', if_pos h']
  exact ⟨rfl, rfl⟩

theorem astimezone_eq (e : Env) (d : DT) (z : Tz) : e.astimezone d z =
    if d.tz = some z then .ok d else
    match mkWall (e.instant d) with
    | .error x => .error x
    | .ok u => match mkWall (e.tzFromUtc z u).1 with
      | .ok w => .ok ⟨w, (e.tzFromUtc z u).2, some z⟩
      | .error x => .error x := by
  unfold Env.astimezone Env.instant
  cases d.tz <;> rfl

theorem astimezone_instant {e : Env} {z : Tz} (hl : e.Lawful z) {d x : DT}
    (h : e.astimezone d z = .ok x) : x.tz = some z ∧ e.instant x = e.instant d := by
  unfold Env.astimezone at h
  split at h
  · rename_i hz
    injection h with h; subst h; exact ⟨hz, rfl⟩
  · dsimp only at h
    split at h
    · cases h
    · rename_i u hu
      obtain ⟨-, -, rfl⟩ := mkWall_ok.1 hu
      split at h
      · rename_i w hw
        obtain ⟨-, -, rfl⟩ := mkWall_ok.1 hw
        injection h with h
        subst h
        refine ⟨rfl, ?_⟩
        unfold Env.instant
        dsimp only
        rw [hl]
        cases d.tz <;> rfl
      · cases h

/-- C25, conversion: if `convert_timezone` to a zone with consistent rules succeeds, begin and a given
end denote the same instants as before, in the new zone; everything else is kept.  Missing: it
need not succeed (`C25_convert_fails`), and an end given as duration may move
(`C25_duration_fails`, `C25_duration_partial`). -/
theorem C25_convert_partial (e : Env) (z : Tz) (hl : e.Lawful z) (s t : Span)
    (h : e.convertTimezone s (some z) = .ok t) :
    t.cls = s.cls ∧ t.dur? = s.dur? ∧ t.prec = s.prec ∧
    (s.begin? = none → t.begin? = none) ∧ (s.end? = none → t.end? = none) ∧
    (∀ b, s.begin? = some b → ∃ b', t.begin? = some b' ∧ b'.tz = some z ∧ e.instant b' = e.instant b) ∧
    (∀ en, s.end? = some en → ∃ en', t.end? = some en' ∧ en'.tz = some z ∧
      e.instant en' = e.instant en) := by
  obtain ⟨-, b, en, hb, he, hm⟩ := convertTimezone_ok h
  obtain ⟨-, rfl⟩ := mkSpan_ok.1 hm
  refine ⟨rfl, rfl, rfl, ?_, ?_, ?_, ?_⟩
  · intro h
    rcases convertOpt_ok hb with ⟨-, h2⟩ | ⟨a, y, h1, -⟩
    · exact h2
    · rw [h] at h1; cases h1
  · intro h
    rcases convertOpt_ok he with ⟨-, h2⟩ | ⟨a, y, h1, -⟩
    · exact h2
    · rw [h] at h1; cases h1
  · intro x hx
    rcases convertOpt_ok hb with ⟨h1, -⟩ | ⟨a, y, h1, h2, h3⟩
    · rw [hx] at h1; cases h1
    · rw [hx] at h1; injection h1 with h1; subst h1
      exact ⟨y, h2, astimezone_instant hl h3⟩
  · intro x hx
    rcases convertOpt_ok he with ⟨h1, -⟩ | ⟨a, y, h1, h2, h3⟩
    · rw [hx] at h1; cases h1
    · rw [hx] at h1; injection h1 with h1; subst h1
      exact ⟨y, h2, astimezone_instant hl h3⟩

theorem fixed_lawful (e : Env) (o : Int) : e.Lawful (.fixed o) := by
  intro u
  simp [Env.tzFromUtc, Env.tzOff]

theorem astimezone_local {e : Env} {d x : DT} (h : e.astimezone? d none = .ok x) :
    ∃ o, e.LocalOffset d o ∧ x.tz = some (.fixed o) ∧ e.instant x = e.instant d := by
  unfold Env.astimezone? at h
  dsimp only at h
  cases hz : d.tz with
  | none =>
    rw [hz] at h
    exact ⟨_, .inl ⟨hz, rfl⟩, astimezone_instant (fixed_lawful e _) h⟩
  | some z =>
    rw [hz] at h
    have hi : d.wall - e.tzOff z d.wall d.fold = e.instant d := by unfold Env.instant; rw [hz]
    dsimp only at h
    rw [hi] at h
    exact ⟨_, .inr ⟨⟨z, hz⟩, rfl⟩, astimezone_instant (fixed_lawful e _) h⟩

/-- C25, conversion to local time (`convert_timezone(None)`): if it succeeds, begin and a given end denote the same
instants as before, each with the offset that local time has then.  Missing: as for `C25_convert_partial`. -/
theorem C25_local_partial (e : Env) (s t : Span) (h : e.convertTimezone s none = .ok t) :
    t.cls = s.cls ∧ t.dur? = s.dur? ∧ t.prec = s.prec ∧
    (s.begin? = none → t.begin? = none) ∧ (s.end? = none → t.end? = none) ∧
    (∀ b, s.begin? = some b → ∃ b' o, t.begin? = some b' ∧ e.LocalOffset b o ∧ b'.tz = some (.fixed o) ∧
      e.instant b' = e.instant b) ∧
    (∀ en, s.end? = some en → ∃ en' o, t.end? = some en' ∧ e.LocalOffset en o ∧ en'.tz = some (.fixed o) ∧
      e.instant en' = e.instant en) := by
  obtain ⟨-, b, en, hb, he, hm⟩ := convertTimezone_ok h
  obtain ⟨-, rfl⟩ := mkSpan_ok.1 hm
  refine ⟨rfl, rfl, rfl, ?_, ?_, ?_, ?_⟩
  · intro h
    rcases convertOpt_ok hb with ⟨-, h2⟩ | ⟨a, y, h1, -⟩
    · exact h2
    · rw [h] at h1; cases h1
  · intro h
    rcases convertOpt_ok he with ⟨-, h2⟩ | ⟨a, y, h1, -⟩
    · exact h2
    · rw [h] at h1; cases h1
  · intro x hx
    rcases convertOpt_ok hb with ⟨h1, -⟩ | ⟨a, y, h1, h2, h3⟩
    · rw [hx] at h1; cases h1
    · rw [hx] at h1; injection h1 with h1; subst h1
      obtain ⟨o, h4⟩ := astimezone_local h3
      exact ⟨y, o, h2, h4⟩
  · intro x hx
    rcases convertOpt_ok he with ⟨h1, -⟩ | ⟨a, y, h1, h2, h3⟩
    · rw [hx] at h1; cases h1
    · rw [hx] at h1; injection h1 with h1; subst h1
      obtain ⟨o, h4⟩ := astimezone_local h3
      exact ⟨y, o, h2, h4⟩

/-- C25, conversion of a span given by a duration: the effective end keeps its instant if the offset at
the begin and at the end is the same, in the old and in the new zone. -/
theorem C25_duration_partial (e : Env) (z : Tz) (hl : e.Lawful z) (s t : Span) (b b' en en' : DT)
    (h : e.convertTimezone s (some z) = .ok t) (hb : s.begin? = some b) (hb' : t.begin? = some b')
    (hn : s.end? = none) (he : e.effEnd s = .ok (some en)) (he' : e.effEnd t = .ok (some en'))
    (hold : e.instant en - e.instant b = en.wall - b.wall)
    (hnew : e.instant en' - e.instant b' = en'.wall - b'.wall) : e.instant en' = e.instant en := by
  obtain ⟨hc, hd, hp, -, hne, hbeg, -⟩ := C25_convert_partial e z hl s t h
  obtain ⟨x, hx1, hx2, hx3⟩ := hbeg b hb
  have : x = b' := by rw [hb'] at hx1; injection hx1 with hx1; exact hx1.symm
  subst this
  have hdur : e.effDur t = e.effDur s := by
    unfold Env.effDur Span.isAllDay
    rw [hd, hne hn, hn, hc, hp]
  have key : ∀ (s : Span) (b en : DT) (d : Int), s.begin? = some b → s.end? = none →
      e.effDur s = .ok (some d) → e.effEnd s = .ok (some en) → en.wall = b.wall + d := by
    intro s b en d hb hn hd he
    unfold Env.effEnd at he
    rw [hn, hb, hd] at he
    dsimp only at he
    cases ha : b.add d with
    | error x => rw [ha] at he; cases he
    | ok y =>
      rw [ha] at he; injection he with he; injection he with he; subst he
      obtain ⟨-, -, rfl⟩ := add_ok.1 ha
      rfl
  cases hds : e.effDur s with
  | error err =>
    unfold Env.effEnd at he
    rw [hn, hb, hds] at he; cases he
  | ok o =>
    cases o with
    | none =>
      unfold Env.effEnd at he
      rw [hn, hb, hds] at he; cases he
    | some d =>
      have h1 := key s b en d hb hn hds he
      have h2 := key t x en' d hb' (hne hn) (hdur.trans hds) he'
      omega

/-- C25: conversion to a zone with a constant offset (such as UTC) succeeds if the results are possible
`datetime`s, begin is not after end as an instant, and offsets are whole seconds. -/
theorem C25_succeeds_partial (e : Env) (z : Tz) (o : Int) (hz : e.Constant z o) (s : Span)
    (hw : WellFormed e s) (hp : s.prec = .second)
    (hr : ∀ d, s.begin? = some d ∨ s.end? = some d →
      0 ≤ e.instant d ∧ e.instant d < maxWall ∧ 0 ≤ e.instant d + o ∧ e.instant d + o < maxWall ∧
        (∃ k : Int, d.wall - e.instant d = k * 1000000) ∧ d.InRange)
    (ho : ∀ b en, s.begin? = some b → s.end? = some en → e.instant b ≤ e.instant en) :
    ∃ t, e.convertTimezone s (some z) = .ok t := by
  have hconv : ∀ d, s.begin? = some d ∨ s.end? = some d →
      ∃ x, e.astimezone d z = .ok x ∧ x.tz = some z ∧ x.wall = e.instant d + o ∧ x.InRange := by
    intro d hd
    obtain ⟨h1, h2, h3, h4, -, h5⟩ := hr d hd
    rw [astimezone_eq]
    by_cases ht : d.tz = some z
    · rw [if_pos ht]
      refine ⟨d, rfl, ht, ?_, h5⟩
      unfold Env.instant
      rw [ht]
      dsimp only
      rw [hz.1]
      omega
    · rw [if_neg ht]
      rw [mkWall_ok.2 ⟨h1, h2, rfl⟩]
      dsimp only
      rw [hz.2, mkWall_ok.2 ⟨h3, h4, rfl⟩]
      exact ⟨_, rfl, rfl, rfl, ⟨h3, h4⟩⟩
  have hnd : s.isAllDay = false := by simp [Span.isAllDay, hp]
  unfold Env.convertTimezone
  rw [if_neg (by rw [hnd]; simp)]
  have hopt : ∀ od : Option DT, (∀ d, od = some d → s.begin? = some d ∨ s.end? = some d) →
      ∃ ox, e.convertOpt od (some z) = .ok ox ∧ (od = none ↔ ox = none) ∧
        ∀ x, ox = some x → ∃ d, od = some d ∧ x.tz = some z ∧ x.wall = e.instant d + o ∧ x.InRange := by
    intro od hod
    cases od with
    | none => exact ⟨none, rfl, Iff.rfl, by simp⟩
    | some d =>
      obtain ⟨x, h1, h2⟩ := hconv d (hod d rfl)
      refine ⟨some x, ?_, by simp, ?_⟩
      · unfold Env.convertOpt Env.astimezone?; dsimp only; rw [h1]
      · intro y hy; injection hy with hy; subst hy; exact ⟨d, rfl, h2⟩
  obtain ⟨ob, hb1, hb2, hb3⟩ := hopt s.begin? (fun d h => Or.inl h)
  obtain ⟨oe, he1, he2, he3⟩ := hopt s.end? (fun d h => Or.inr h)
  refine ⟨{ s with begin? := ob, end? := oe }, ?_⟩
  rw [hb1, he1]
  have hext : ∀ b en x y, s.begin? = some b → s.end? = some en → ob = some x → oe = some y →
      e.extent x y = e.instant en - e.instant b := by
    intro b en x y h1 h2 h3 h4
    obtain ⟨d1, h5, h6, h7, -⟩ := hb3 x h3
    obtain ⟨d2, h8, h9, h10, -⟩ := he3 y h4
    rw [h1] at h5; injection h5 with h5; subst h5
    rw [h2] at h8; injection h8 with h8; subst h8
    unfold Env.extent
    rw [if_pos (h6.trans h9.symm)]
    omega
  refine mkSpan_of_wf ⟨?_, ?_⟩ ?_
  · intro x hx; obtain ⟨d, -, -, -, h⟩ := hb3 x hx; exact h
  · intro x hx; obtain ⟨d, -, -, -, h⟩ := he3 x hx; exact h
  · constructor
    · intro x y h1 h2
      obtain ⟨-, -, h3, -⟩ := hb3 x h1
      obtain ⟨-, -, h4, -⟩ := he3 y h2
      rw [h3, h4]
    · intro x y h1 h2
      obtain ⟨b, h3, -⟩ := hb3 x h1
      obtain ⟨en, h4, -⟩ := he3 y h2
      rw [hext b en x y h3 h4 h1 h2]
      have := ho b en h3 h4
      omega
    · rcases hw.notBoth with h | h
      · exact Or.inl (he2.1 h)
      · exact Or.inr h
    · intro h hb; exact hw.durBegin h (hb2.2 hb)
    · intro hc h hb; exact hw.eventEnd hc (fun hh => h (he2.1 hh)) (hb2.2 hb)
    · exact hw.durNonneg
    · intro h; rw [hp] at h; cases h
    · intro h; rw [hp] at h; cases h
    · intro h; rw [hp] at h; cases h
    · intro x y h1 h2 h0
      obtain ⟨b, h3, -⟩ := hb3 x h1
      obtain ⟨en, h4, -⟩ := he3 y h2
      rw [hext b en x y h3 h4 h1 h2] at h0 ⊢
      obtain ⟨-, -, -, -, ⟨k1, hk1⟩, -⟩ := hr b (Or.inl h3)
      obtain ⟨-, -, -, -, ⟨k2, hk2⟩, -⟩ := hr en (Or.inr h4)
      have hpre : e.extent b en ≠ 0 → PreciseTo .second (e.extent b en) := by
        intro h; have := hw.precise b en h3 h4 h; rwa [hp] at this
      have hgoal : PreciseTo .second (e.instant en - e.instant b) := by
        unfold Env.extent at hpre
        by_cases ht : b.tz = en.tz
        · rw [if_pos ht] at hpre
          by_cases hd : en.wall - b.wall = 0
          · exact ⟨_, k1 - k2, 0, Or.inr ⟨rfl, rfl⟩, by omega, by omega, by omega⟩
          · obtain ⟨u, q, r, hu, h5, h6, h7⟩ := hpre hd
            rcases hu with ⟨hu, -⟩ | ⟨-, rfl⟩
            · cases hu
            · exact ⟨_, q + k1 - k2, r, Or.inr ⟨rfl, rfl⟩, by omega, h6, h7⟩
        · rw [if_neg ht] at hpre
          exact hpre h0
      rw [hp]
      exact hgoal
    · exact hw.preciseDur

example : dstEnv.convertTimezone exSpan (some (.zone 0)) =
    .ok ⟨.event, some ⟨dayNo 737511 + hours 9, false, some (.zone 0)⟩,
      some ⟨dayNo 737512 + hours 10, false, some (.zone 0)⟩, none, .second⟩ := by decide +kernel

example : dstEnv.Constant (.zone 0) 0 := ⟨fun _ _ => rfl, fun u => by simp [Env.tzFromUtc, dstEnv]⟩

/-- C25 is false in general: a span of 20 minutes in UTC around the end of DST in Berlin cannot be
converted to that zone. -/
theorem C25_convert_fails : ∃ s : Span, dstEnv.mkSpan s = .ok s ∧
    dstEnv.convertTimezone s (some (.zone 1)) = .error .valueError :=
  ⟨⟨.event, some ⟨dayNo 737722 + hours 1 - 600000000, false, some (.zone 0)⟩,
    some ⟨dayNo 737722 + hours 1 + 600000000, false, some (.zone 0)⟩, none, .second⟩, by decide +kernel⟩

/-- C25 is false for durations: 24 hours in UTC across the begin of DST end one hour earlier after
conversion. -/
theorem C25_duration_fails : ∃ (s t : Span) (x y : DT), dstEnv.mkSpan s = .ok s ∧
    dstEnv.convertTimezone s (some (.zone 1)) = .ok t ∧ dstEnv.effEnd s = .ok (some x) ∧
    dstEnv.effEnd t = .ok (some y) ∧ dstEnv.instant y = dstEnv.instant x - hours 1 :=
  ⟨⟨.event, some ⟨dayNo 737511 + hours 12, false, some (.zone 0)⟩, none, some (hours 24), .second⟩,
    ⟨.event, some ⟨dayNo 737511 + hours 13, false, some (.zone 1)⟩, none, some (hours 24), .second⟩,
    ⟨dayNo 737512 + hours 12, false, some (.zone 0)⟩,
    ⟨dayNo 737512 + hours 13, false, some (.zone 1)⟩, by decide +kernel⟩

/-- C25, replacement: if begin and end have the same zone (or one is missing), `replace_timezone`
succeeds, keeps the wall clocks and everything else and sets the zone. -/
theorem C25_replace_partial (e : Env) (s : Span) (z : Option Tz) (hw : WellFormed e s) (hr : s.InRange)
    (hp : s.prec ≠ .day) (hz : ∀ b en, s.begin? = some b → s.end? = some en → b.tz = en.tz) :
    e.replaceTimezone s z = .ok { s with
      begin? := s.begin?.map fun d => ⟨d.wall, d.fold, z⟩
      end? := s.end?.map fun d => ⟨d.wall, d.fold, z⟩ } := by
  unfold Env.replaceTimezone
  rw [if_neg (by simpa [Span.isAllDay] using hp)]
  show e.mkSpan { s with
      begin? := s.begin?.map fun d => ⟨d.wall, d.fold, z⟩
      end? := s.end?.map fun d => ⟨d.wall, d.fold, z⟩ } = _
  have hext : ∀ x y, (s.begin?.map fun d => (⟨d.wall, d.fold, z⟩ : DT)) = some x →
      (s.end?.map fun d => (⟨d.wall, d.fold, z⟩ : DT)) = some y →
      ∃ b en, s.begin? = some b ∧ s.end? = some en ∧ e.extent x y = e.extent b en ∧ x.tz = y.tz := by
    intro x y h1 h2
    obtain ⟨b, h3, rfl⟩ := Option.map_eq_some_iff.1 h1
    obtain ⟨en, h4, rfl⟩ := Option.map_eq_some_iff.1 h2
    refine ⟨b, en, h3, h4, ?_, rfl⟩
    unfold Env.extent
    rw [if_pos rfl, if_pos (hz b en h3 h4)]
  refine mkSpan_of_wf ⟨?_, ?_⟩ ?_
  · intro x hx
    obtain ⟨b, h3, rfl⟩ := Option.map_eq_some_iff.1 hx
    have := hr.1 b h3
    exact this
  · intro x hx
    obtain ⟨b, h3, rfl⟩ := Option.map_eq_some_iff.1 hx
    have := hr.2 b h3
    exact this
  · constructor
    · intro x y h1 h2; obtain ⟨-, -, -, -, -, h⟩ := hext x y h1 h2; rw [h]
    · intro x y h1 h2; obtain ⟨b, en, h3, h4, h5, -⟩ := hext x y h1 h2; rw [h5]; exact hw.order b en h3 h4
    · rcases hw.notBoth with h | h
      · left; rw [h]; rfl
      · exact Or.inr h
    · intro h hb; exact hw.durBegin h (by simpa using hb)
    · intro hc h hb; exact hw.eventEnd hc (by simpa using h) (by simpa using hb)
    · exact hw.durNonneg
    · intro h; exact absurd h hp
    · intro h; exact absurd h hp
    · intro h; exact absurd h hp
    · intro x y h1 h2 h0; obtain ⟨b, en, h3, h4, h5, -⟩ := hext x y h1 h2
      rw [h5] at h0 ⊢; exact hw.precise b en h3 h4 h0
    · exact hw.preciseDur

/-- C25 is false for spans between two zones: replacing both by one zone may reverse begin and end. -/
theorem C25_replace_fails : ∃ s : Span, dstEnv.mkSpan s = .ok s ∧
    dstEnv.replaceTimezone s (some (.zone 0)) = .error .valueError :=
  ⟨⟨.event, some ⟨dayNo 737511 + hours 12, false, some (.zone 1)⟩,
    some ⟨dayNo 737511 + hours 11 + 1, false, some (.zone 0)⟩, none, .second⟩, by decide +kernel⟩

/-- An hour in a zone two hours ahead, converted where local time is an hour ahead. -/
example : ∃ t, { dstEnv with sysUtcOff := fun _ => hours 1 : Env }.convertTimezone
    { cls := .event, begin? := some ⟨hours 12, false, some (.fixed (hours 2))⟩,
      end? := some ⟨hours 13, false, some (.fixed (hours 2))⟩, dur? := none, prec := .second } none = .ok t ∧
    t.begin? = some ⟨hours 11, false, some (.fixed (hours 1))⟩ := ⟨_, rfl, rfl⟩

end Ics
