import Verif.Model.TimeOfDay
import Verif.Props.Timezone

/-
C101: what a time of day in a `Timezone` can be asked.
-/
namespace Ics

/-- The time of day has no zone, or a `Timezone` object. -/
def InTimezone (t : Clock) : Prop := t.tz = none ∨ ∃ id obs, t.tz = some (.timezone id obs)

theorem inTimezone_offset {t : Clock} (h : InTimezone t) : t.ask .utcoffset = .ok none := by
  unfold Clock.ask
  rcases h with h | ⟨id, obs, h⟩ <;> rw [h] <;> rfl

theorem clock_cmp_timezone {a b : Clock} (ha : InTimezone a) (hb : InTimezone b) (m : Bool) :
    a.cmp m b = .ok (some (compare a.us b.us)) := by
  unfold Clock.cmp
  rw [inTimezone_offset ha, inTimezone_offset hb]
  simp only [if_true, ite_self]

/-- C101: a time of day in a `Timezone` has no UTC offset, whatever the zone. -/
theorem C101_offset (us : Int) (id : Nat) (obs : List Observance) :
    (Clock.mk us (some (.timezone id obs))).ask .utcoffset = .ok none := rfl

/-- C101: a time of day in a `Timezone` has a name and a daylight saving exactly if the zone has one observance;
with more it raises `AttributeError`, with none `IndexError`. -/
theorem C101_name (us : Int) (id : Nat) (obs : List Observance) (q : TzQuery) (hq : q ≠ .utcoffset) :
    (∀ a, (Clock.mk us (some (.timezone id obs))).ask q = .ok (some a) ↔ ∃ o, obs = [o] ∧ Answers o q a) ∧
    (∀ e, (Clock.mk us (some (.timezone id obs))).ask q = .error e ↔
      (obs = [] ∧ e = .indexError) ∨ (2 ≤ obs.length ∧ e = .attributeError)) ∧
    (Clock.mk us (some (.timezone id obs))).ask q ≠ .ok none := by
  show (∀ a, askTzNone obs q = .ok (some a) ↔ _) ∧ (∀ e, askTzNone obs q = .error e ↔ _) ∧ askTzNone obs q ≠ .ok none
  match q, hq, obs with
  | .utcoffset, hq, _ => exact absurd rfl hq
  | .dst, _, [] | .tzname, _, [] =>
    refine ⟨fun a => ⟨nofun, ?_⟩, fun e => ⟨?_, ?_⟩, nofun⟩
    · rintro ⟨_, h, _⟩; cases h
    · intro h; cases h; exact .inl ⟨rfl, rfl⟩
    · rintro (⟨_, rfl⟩ | ⟨h, _⟩)
      · rfl
      · exact absurd h (by simp)
  | .dst, _, [o] | .tzname, _, [o] =>
    refine ⟨fun a => ⟨?_, ?_⟩, fun e => ⟨nofun, ?_⟩, nofun⟩
    · intro h; cases h; exact ⟨o, rfl, rfl⟩
    · rintro ⟨_, h, rfl⟩; cases h; rfl
    · rintro (⟨h, _⟩ | ⟨h, _⟩)
      · cases h
      · exact absurd h (by simp)
  | .dst, _, _ :: _ :: _ | .tzname, _, _ :: _ :: _ =>
    refine ⟨fun a => ⟨nofun, ?_⟩, fun e => ⟨?_, ?_⟩, nofun⟩
    · rintro ⟨_, h, _⟩; cases h
    · intro h; cases h; exact .inr ⟨by simp, rfl⟩
    · rintro (⟨h, _⟩ | ⟨_, rfl⟩)
      · cases h
      · rfl

/-- C101: times of day without zone or in `Timezone`s compare as the clocks do, whatever the zones are. -/
theorem C101_compare (a b : Clock) (ha : InTimezone a) (hb : InTimezone b) :
    a.eq b = .ok (decide (a.us = b.us)) ∧ a.lt b = .ok (decide (a.us < b.us)) := by
  unfold Clock.eq Clock.lt
  rw [clock_cmp_timezone ha hb, clock_cmp_timezone ha hb]
  constructor
  · by_cases h : a.us = b.us
    · simp [h]
    · simp [h]
  · by_cases h : a.us < b.us
    · simp [compare, compareOfLessAndEq, h]
    · simp only [compare, compareOfLessAndEq, h, if_false]
      split <;> rfl

/-- C101: a time of day in a `Timezone` (or without zone) equals no time of day in a `datetime.timezone`, and cannot be compared with it. -/
theorem C101_mixed (a : Clock) (ha : InTimezone a) (us : Int) (id : Nat) (off : Int)
    (hid : ∀ n obs, a.tz = some (.timezone n obs) → n ≠ id) :
    a.eq ⟨us, some (.fixed id off)⟩ = .ok false ∧ a.lt ⟨us, some (.fixed id off)⟩ = .error .typeError ∧
    Clock.eq ⟨us, some (.fixed id off)⟩ a = .ok false ∧ Clock.lt ⟨us, some (.fixed id off)⟩ a = .error .typeError := by
  have h1 : (a.tz.map ClockZone.ident = some id) → False := by
    rcases ha with h | ⟨n, obs, h⟩
    · rw [h]; nofun
    · intro he
      rw [h] at he
      exact hid n obs h (Option.some.inj he)
  have h2 : ¬ some id = a.tz.map ClockZone.ident := fun h => h1 h.symm
  have h3 : ∀ m, a.cmp m ⟨us, some (.fixed id off)⟩ = if m then .ok none else .error .typeError := by
    intro m
    unfold Clock.cmp
    rw [show (Clock.mk us (some (.fixed id off))).tz.map ClockZone.ident = some id from rfl, if_neg h1, inTimezone_offset ha]
    rfl
  have h4 : ∀ m, Clock.cmp m ⟨us, some (.fixed id off)⟩ a = if m then .ok none else .error .typeError := by
    intro m
    unfold Clock.cmp
    rw [show (Clock.mk us (some (.fixed id off))).tz.map ClockZone.ident = some id from rfl, if_neg h2, inTimezone_offset ha]
    rfl
  unfold Clock.eq Clock.lt
  rw [h3, h3, h4, h4]
  exact ⟨rfl, rfl, rfl, rfl⟩

/-- A zone with daylight saving time and a zone without, as objects; and the library's `UTC`. -/
def exClockZones : List ClockZone :=
  [.timezone 0 [exSummer, exWinter], .timezone 1 [⟨5 * exHour, 5 * exHour, exWinter.rule, some "X".toList, false⟩],
    .timezone 2 [⟨0, 0, exWinter.rule, some "UTC".toList, false⟩]]

/-- Noon in every one of these zones is noon without zone, and noon in another; the name can be asked for two of
them only. -/
example : ∀ z ∈ exClockZones, ∀ z' ∈ exClockZones,
    Clock.eq ⟨12 * exHour, some z⟩ ⟨12 * exHour, some z'⟩ = .ok true ∧
    Clock.eq ⟨12 * exHour, some z⟩ ⟨12 * exHour, none⟩ = .ok true ∧
    Clock.lt ⟨12 * exHour, some z⟩ ⟨13 * exHour, some z'⟩ = .ok true := by
  have hz : ∀ z ∈ exClockZones, ∃ id obs, z = .timezone id obs := by
    intro z hz
    simp only [exClockZones, List.mem_cons, List.not_mem_nil, or_false] at hz
    rcases hz with rfl | rfl | rfl <;> exact ⟨_, _, rfl⟩
  intro z h z' h'
  obtain ⟨i, o, rfl⟩ := hz z h
  obtain ⟨i', o', rfl⟩ := hz z' h'
  refine ⟨?_, ?_, ?_⟩
  · rw [(C101_compare _ _ (.inr ⟨_, _, rfl⟩) (.inr ⟨_, _, rfl⟩)).1]; simp
  · rw [(C101_compare _ _ (.inr ⟨_, _, rfl⟩) (.inl rfl)).1]; simp
  · rw [(C101_compare _ _ (.inr ⟨_, _, rfl⟩) (.inr ⟨_, _, rfl⟩)).2]; exact congrArg _ (show decide ((12 : Int) * exHour < 13 * exHour) = true by decide)

example : exClockZones.map (fun z => (Clock.mk 0 (some z)).ask .tzname) =
    [.error .attributeError, .ok (some (.name (some "X".toList))), .ok (some (.name (some "UTC".toList)))] := by decide

/-- Noon UTC of the library is not noon UTC of the standard library. -/
example : exClockZones.map (fun z => (Clock.mk (12 * exHour) (some z)).eq ⟨12 * exHour, some (.fixed 9 0)⟩) =
    [.ok false, .ok false, .ok false] ∧
    exClockZones.map (fun z => (Clock.mk (12 * exHour) (some z)).lt ⟨12 * exHour, some (.fixed 9 0)⟩) =
    [.error .typeError, .error .typeError, .error .typeError] := by decide

end Ics
