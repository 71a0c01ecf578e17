import Verif.Proofs.Fromutc
import Verif.Props.Timespan

/-
C92: converting a time into a time zone that was read from a VTIMEZONE.
-/
namespace Ics

/-- C92, partial: with at least two observances, `fromutc` gives the local time of the current observance,
provided that changes happen in the order of their onsets, that the clock of standard time is in step
with the changes at this instant, and that the observance whose onset comes before the UTC time, read as
a local time, has the same standard time.  Earlier queries do not matter unless they asked for the same
times with `fold=1`.  (Missing: the second condition, which does not hold in the hour after clocks are
turned back, see `C92_late`; the third, which matters in the hours around a change of standard time.) -/
theorem C92_right_partial (obs : List Observance) (h2 : 2 ≤ obs.length) (hsm : ∀ o ∈ obs, o.Small)
    (ho : InOrder obs) (u : Int) (o : Observance) (hc : Current obs u o)
    (hs : InStep obs u o.standard)
    (hb : ∀ o', (InForce obs u false o' ∨ BeforeAll obs u false ∧ IsDefault obs o') → o'.standard = o.standard)
    (hr0 : 0 ≤ u + o.standard) (hr1 : u + o.standard < maxWall)
    (ht0 : 0 ≤ u + o.offsetTo) (ht1 : u + o.offsetTo < maxWall)
    (h : List (TzQuery × Int × Bool)) (hu : ∀ q, (q, u, true) ∉ h)
    (hw : ∀ q, (q, u + o.standard, true) ∉ h) :
    (zoneFromUtc obs u (tzHistory obs h [])).1 = .ok (u + o.offsetTo) := by
  obtain ⟨o1, hf1⟩ := found_first h2 u
  have e1 := hb o1 (findObservance_spec hf1)
  obtain ⟨o2, hf2⟩ := found_first h2 (u + o.standard)
  have e2 := current_found ho hs hc hf2
  subst e2
  rw [← e1] at hf2 hw hr0 hr1
  rw [zoneFromUtc_found h2 hsm hu hw hf1 hf2 hr0 hr1, e1]
  have e : u + o2.standard + (o2.offsetTo - o2.standard) = u + o2.offsetTo := by omega
  rw [e]
  exact if_pos ⟨ht0, ht1⟩

/-- C92, partial: if moreover the local clock is in step with the changes, the local time stands for the
instant that was converted: the offset the zone gives for it leads back. -/
theorem C92_instant_partial (obs : List Observance) (h2 : 2 ≤ obs.length) (ho : InOrder obs) (u : Int)
    (o : Observance) (hc : Current obs u o) (hs : InStep obs u o.offsetTo)
    (h : List (TzQuery × Int × Bool)) (hu : ∀ q, (q, u + o.offsetTo, true) ∉ h) :
    ∃ off, (askTz obs .utcoffset (u + o.offsetTo) false (tzHistory obs h [])).1 = .ok (.delta off) ∧
      u + o.offsetTo - off = u := by
  refine ⟨o.offsetTo, ?_, by omega⟩
  rw [C37_partial obs h .utcoffset (u + o.offsetTo) false (by
    intro q f hm
    cases f with
    | false => rfl
    | true => exact absurd hm (hu q)), askTz_fresh h2]
  obtain ⟨o1, hf⟩ := found_first h2 (u + o.offsetTo)
  rw [hf, current_found ho hs hc hf]
  rfl

/-- C92: at an instant a zone has at most one current observance. -/
theorem C92_unique (obs : List Observance) (u : Int) (o o' : Observance) (h : Current obs u o)
    (h' : Current obs u o') : o = o' := by
  rcases h with ⟨x, hm, hx, hl⟩ | ⟨hn, hd⟩
  · rcases h' with ⟨x', hm', hx', hl'⟩ | ⟨hn', -⟩
    · rcases hl o' hm' x' hx' with h1 | ⟨-, h1⟩
      · rcases hl' o hm x hx with h3 | ⟨-, h3⟩
        · omega
        · exact h3
      · exact h1.symm
    · exact absurd hx (hn' o hm x)
  · rcases h' with ⟨x', hm', hx', -⟩ | ⟨-, hd'⟩
    · exact absurd hx' (hn o' hm' x')
    · exact isDefault_unique hd hd'

/-- C92: a zone with a single observance converts every instant to the local time of that observance,
whatever was asked before, and the offset leads back. -/
theorem C92_single (o : Observance) (hsm : o.Small) (u : Int) (cache : TzCache)
    (hr0 : 0 ≤ u + o.standard) (hr1 : u + o.standard < maxWall)
    (ht0 : 0 ≤ u + o.offsetTo) (ht1 : u + o.offsetTo < maxWall) :
    (zoneFromUtc [o] u cache).1 = .ok (u + o.offsetTo) ∧
      (askTz [o] .utcoffset (u + o.offsetTo) false cache).1 = .ok (.delta o.offsetTo) := by
  refine ⟨?_, rfl⟩
  have ec : ∀ (q : TzQuery) (w d : Int), o.answer q = .delta d → -dayUs < d → d < dayUs →
      checkedDelta [o] q w cache = (.ok d, cache) := by
    intro q w d ha h1 h3
    have e : askTz [o] q w false cache = (.ok (o.answer q), cache) := rfl
    unfold checkedDelta
    rw [e, ha]
    exact if_pos ⟨h1, h3⟩
  unfold zoneFromUtc
  rw [ec _ _ _ (offset_delta o) hsm.1 hsm.2.1]
  dsimp only
  rw [ec _ _ _ (dst_delta o) (small_dst hsm).1 (small_dst hsm).2]
  dsimp only
  have e : o.offsetTo - (o.offsetTo - o.standard) = o.standard := by omega
  rw [e]
  by_cases h0 : o.standard = 0
  · rw [if_pos h0, h0, Int.sub_zero]
    exact if_pos ⟨ht0, ht1⟩
  · rw [if_neg h0]
    have ew : mkWall (u + o.standard) = .ok (u + o.standard) := if_pos ⟨hr0, hr1⟩
    rw [ew]
    dsimp only
    rw [ec _ _ _ (dst_delta o) (small_dst hsm).1 (small_dst hsm).2]
    have e : u + o.standard + (o.offsetTo - o.standard) = u + o.offsetTo := by omega
    show mkWall (u + o.standard + (o.offsetTo - o.standard)) = _
    rw [e]
    exact if_pos ⟨ht0, ht1⟩

/-- C92: nothing can be converted into a zone without observances. -/
theorem C92_none (u : Int) (cache : TzCache) : (zoneFromUtc [] u cache).1 = .error .indexError := rfl

/-- C92 is false in the hour after clocks are turned back: if the last change led to standard time `o`,
but a clock of standard time has not yet reached its onset `x`, and daylight saving time `d` is the
observance in force for that clock, then the local time given is that of daylight saving time. -/
theorem C92_late (obs : List Observance) (h2 : 2 ≤ obs.length) (hsm : ∀ o ∈ obs, o.Small) (u x : Int)
    (o d : Observance) (hl : LastChange obs u o x) (hstd : o.isDst = false) (hd : d.isDst = true)
    (hsame : d.offsetFrom = o.offsetTo) (hx : u + o.offsetTo < x) (hdl : InForce obs (u + o.offsetTo) false d)
    (hb : ∀ o', (InForce obs u false o' ∨ BeforeAll obs u false ∧ IsDefault obs o') →
      o'.standard = o.standard)
    (hr0 : 0 ≤ u + o.offsetTo) (hr1 : u + o.offsetTo < maxWall)
    (ht0 : 0 ≤ u + d.offsetTo) (ht1 : u + d.offsetTo < maxWall) :
    Current obs u o ∧ x - o.offsetFrom ≤ u ∧ u < x - o.offsetTo ∧
      (zoneFromUtc obs u []).1 = .ok (u + o.offsetTo + (d.offsetTo - d.offsetFrom)) := by
  refine ⟨.inl ⟨x, hl⟩, hl.2.1.2, by omega, ?_⟩
  have so : o.standard = o.offsetTo := by unfold Observance.standard; rw [hstd]; rfl
  have sd : d.standard = d.offsetFrom := by unfold Observance.standard; rw [hd]; rfl
  obtain ⟨o1, hf1⟩ := found_first h2 u
  have e1 := hb o1 (findObservance_spec hf1)
  rw [so] at e1
  obtain ⟨o2, hf2⟩ := found_first h2 (u + o.offsetTo)
  have e2 : o2 = d := by
    rcases findObservance_spec hf2 with h | ⟨h, -⟩
    · exact C36_unique _ _ _ _ _ h hdl
    · obtain ⟨i, y, hi, hy, -⟩ := hdl
      exact absurd hy (h d (List.mem_of_getElem? hi) y)
  subst e2
  rw [← e1] at hf2 hr0 hr1
  have := zoneFromUtc_found (h := []) h2 hsm (by simp) (by simp) hf1 hf2 hr0 hr1
  rw [show tzHistory obs [] [] = [] from rfl] at this
  rw [this, e1, sd]
  exact if_pos ⟨by omega, by omega⟩

/-! ### The zone of the examples -/

theorem exZone_order : InOrder [exSummer, exWinter] := by
  intro o ho o' ho' x y hx hy hxy
  simp only [List.mem_cons, List.not_mem_nil, or_false] at ho ho'
  rcases ho with rfl | rfl <;> rcases ho' with rfl | rfl <;>
  · obtain ⟨n, rfl⟩ := hx
    obtain ⟨m, rfl⟩ := hy
    simp only [exSummer, exWinter, exHour, dayUs] at *
    omega

theorem exZone_small : ∀ o ∈ [exSummer, exWinter], o.Small := by
  intro o ho
  simp only [List.mem_cons, List.not_mem_nil, or_false] at ho
  rcases ho with rfl | rfl <;> exact ⟨by decide, by decide, by decide, by decide⟩

/-- Noon of day 10150, in summer. -/
theorem exZone_current : Current [exSummer, exWinter] (10150 * dayUs + 12 * exHour) exSummer := by
  refine .inl ⟨10080 * dayUs + 2 * exHour, by simp, ⟨⟨0, by omega⟩, by decide⟩, ?_⟩
  intro o ho y hy
  simp only [List.mem_cons, List.not_mem_nil, or_false] at ho
  rcases ho with rfl | rfl <;>
  · obtain ⟨⟨n, rfl⟩, h⟩ := hy
    simp only [exSummer, exWinter, exHour, dayUs] at *
    first
    | (right; constructor; omega; trivial)
    | omega

theorem exZone_step (c : Int) (h0 : -dayUs < c) (h1 : c < dayUs) :
    InStep [exSummer, exWinter] (10150 * dayUs + 12 * exHour) c := by
  intro o ho y hy
  simp only [List.mem_cons, List.not_mem_nil, or_false] at ho
  rcases ho with rfl | rfl <;>
  · obtain ⟨n, rfl⟩ := hy
    simp only [exSummer, exWinter, exHour, dayUs] at *
    constructor <;> intro h <;> omega

theorem exZone_standard : ∀ o ∈ [exSummer, exWinter], o.standard = exHour := by
  intro o ho
  simp only [List.mem_cons, List.not_mem_nil, or_false] at ho
  rcases ho with rfl | rfl <;> rfl

theorem exZone_base (u : Int) : ∀ o', (InForce [exSummer, exWinter] u false o' ∨
    BeforeAll [exSummer, exWinter] u false ∧ IsDefault [exSummer, exWinter] o') → o'.standard = exHour := by
  intro o' h
  rcases h with ⟨i, x, hi, -⟩ | ⟨-, h⟩
  · exact exZone_standard o' (List.mem_of_getElem? hi)
  · exact exZone_standard o' (default_mem h)

/-- Noon in UTC is two o'clock in the zone in summer, also after other queries. -/
example : (zoneFromUtc [exSummer, exWinter] (10150 * dayUs + 12 * exHour)
      (tzHistory [exSummer, exWinter] [(.dst, 10300 * dayUs + 9000000000, true)] [])).1 =
    .ok (10150 * dayUs + 12 * exHour + 2 * exHour) :=
  C92_right_partial _ (by simp) exZone_small exZone_order _ exSummer exZone_current
    (exZone_step _ (by decide) (by decide)) (exZone_base _) (by decide) (by decide) (by decide) (by decide) _
    (by intro q h; simp at h; exact absurd h.2 (by decide))
    (by intro q h; simp at h; exact absurd h.2 (by decide))

example : ∃ off, (askTz [exSummer, exWinter] .utcoffset (10150 * dayUs + 12 * exHour + 2 * exHour) false []).1 =
    .ok (.delta off) ∧ 10150 * dayUs + 12 * exHour + 2 * exHour - off = 10150 * dayUs + 12 * exHour :=
  C92_instant_partial _ (by simp) exZone_order _ exSummer exZone_current
    (exZone_step _ (by decide) (by decide)) [] (by simp)

example : exWinter.Small := exZone_small _ (by simp)

/-- Half past one in UTC on day 10300: clocks have been turned back half an hour ago. -/
theorem exZone_turned : LastChange [exSummer, exWinter] (10300 * dayUs + 5400000000) exWinter
    (10300 * dayUs + 3 * exHour) := by
  refine ⟨by simp, ⟨⟨0, by omega⟩, by decide⟩, ?_⟩
  intro o ho y hy
  simp only [List.mem_cons, List.not_mem_nil, or_false] at ho
  rcases ho with rfl | rfl <;>
  · obtain ⟨⟨n, rfl⟩, h⟩ := hy
    simp only [exSummer, exWinter, exHour, dayUs] at *
    first
    | (right; constructor; omega; trivial)
    | omega

theorem exZone_still : InForce [exSummer, exWinter] (10300 * dayUs + 5400000000 + exHour) false exSummer := by
  refine ⟨0, 10080 * dayUs + 2 * exHour, rfl, reached_first.2 ⟨⟨0, by omega⟩, by decide⟩, ?_⟩
  intro j o' y hj hy
  have hm := List.mem_of_getElem? hj
  obtain ⟨h1, h2⟩ := reached_first.1 hy
  simp only [List.mem_cons, List.not_mem_nil, or_false] at hm
  rcases hm with rfl | rfl <;>
  · obtain ⟨n, rfl⟩ := h1
    simp only [exSummer, exWinter, exHour, dayUs] at *
    omega

/-- C92 is false: at half past one in UTC on day 10300 local clocks show half past two for the second
time, but the conversion gives half past three, which stands for an instant one hour later. -/
theorem C92_fails : ∃ (obs : List Observance) (u : Int) (o : Observance) (w : Int), Current obs u o ∧
    (zoneFromUtc obs u []).1 = .ok w ∧ w = u + o.offsetTo + exHour ∧
    (askTz obs .utcoffset w false []).1 = .ok (.delta (w - u - exHour)) := by
  obtain ⟨h1, -, -, h2⟩ := C92_late [exSummer, exWinter] (by simp) exZone_small
    (10300 * dayUs + 5400000000) (10300 * dayUs + 3 * exHour) exWinter exSummer exZone_turned rfl rfl rfl
    (by decide) exZone_still (exZone_base _) (by decide) (by decide) (by decide) (by decide)
  exact ⟨_, _, _, _, h1, h2, by decide, by decide +kernel⟩

/-! ### Time spans -/

/-- Zone `n` of the surroundings is a `Timezone` object with these observances that has not been asked
before (/repo/src/ics/timezone/__init__.py:127-230 as the `tzinfo` of /repo/src/ics/timespan.py:209-225). -/
structure IsVtimezone (e : Env) (n : Nat) (obs : List Observance) : Prop where
  offset : ∀ w f a, (askTz obs .utcoffset w f []).1 = .ok (.delta a) → e.off n w f = a
  local_ : ∀ u w, (zoneFromUtc obs u []).1 = .ok w → e.fromUtc n u = (w, false)

/-- C92, partial: `astimezone` into a VTIMEZONE keeps the instant and shows the clock of the current
observance, away from changes. -/
theorem C92_convert_partial (e : Env) (n : Nat) (obs : List Observance) (hz : IsVtimezone e n obs)
    (h2 : 2 ≤ obs.length) (hsm : ∀ o ∈ obs, o.Small) (ho : InOrder obs) (d : DT) (o : Observance)
    (hd : d.tz ≠ some (.zone n)) (hi0 : 0 ≤ e.instant d) (hi1 : e.instant d < maxWall)
    (hc : Current obs (e.instant d) o)
    (hs : InStep obs (e.instant d) o.standard) (ht : InStep obs (e.instant d) o.offsetTo)
    (hb : ∀ o', (InForce obs (e.instant d) false o' ∨ BeforeAll obs (e.instant d) false ∧ IsDefault obs o') →
      o'.standard = o.standard)
    (hr0 : 0 ≤ e.instant d + o.standard) (hr1 : e.instant d + o.standard < maxWall)
    (ht0 : 0 ≤ e.instant d + o.offsetTo) (ht1 : e.instant d + o.offsetTo < maxWall) :
    ∃ d', e.astimezone d (.zone n) = .ok d' ∧ d'.tz = some (.zone n) ∧
      d'.wall = e.instant d + o.offsetTo ∧ e.instant d' = e.instant d := by
  have hf := hz.local_ _ _ (C92_right_partial obs h2 hsm ho _ o hc hs hb hr0 hr1 ht0 ht1 [] (by simp) (by simp))
  obtain ⟨off, hoff, hoff'⟩ := C92_instant_partial obs h2 ho _ o hc ht [] (by simp)
  have hoff := hz.offset _ _ _ hoff
  rw [astimezone_eq, if_neg hd]
  have e1 : mkWall (e.instant d) = .ok (e.instant d) := if_pos ⟨hi0, hi1⟩
  have e2 : e.tzFromUtc (.zone n) (e.instant d) = (e.instant d + o.offsetTo, false) := hf
  have e3 : mkWall (e.instant d + o.offsetTo) = .ok (e.instant d + o.offsetTo) := if_pos ⟨ht0, ht1⟩
  rw [e1]
  dsimp only
  rw [e2]
  dsimp only
  rw [e3]
  refine ⟨_, rfl, rfl, rfl, ?_⟩
  show e.instant d + o.offsetTo - e.off n (e.instant d + o.offsetTo) false = e.instant d
  rw [hoff]
  exact hoff'

/-- Surroundings for the examples: zone 0 is UTC, all others are the zone of the examples (a `Timezone`,
/repo/src/ics/timezone/__init__.py:127-230). -/
def vtzEnv : Env where
  off n w f := if n = 0 then 0 else
    match (askTz [exSummer, exWinter] .utcoffset w f []).1 with
    | .ok (.delta a) => a
    | _ => 0
  fromUtc n u := if n = 0 then (u, false) else
    match (zoneFromUtc [exSummer, exWinter] u []).1 with
    | .ok w => (w, false)
    | .error _ => (u, false)
  locOff _ _ := 0
  locFromUtc u := (u, false)
  sysOff _ _ := 0
  sysUtcOff _ := 0
  isUtc n := n == 0

theorem vtzEnv_zone : IsVtimezone vtzEnv 1 [exSummer, exWinter] where
  offset w f a h := by
    show (match (askTz [exSummer, exWinter] .utcoffset w f []).1 with
      | .ok (.delta a) => a
      | _ => (0 : Int)) = a
    rw [h]
  local_ u w h := by
    show (match (zoneFromUtc [exSummer, exWinter] u []).1 with
      | .ok w => (w, false)
      | .error _ => (u, false)) = (w, false)
    rw [h]

/-- Noon in UTC in summer. -/
example : ∃ d', vtzEnv.astimezone ⟨10150 * dayUs + 12 * exHour, false, some (.zone 0)⟩ (.zone 1) = .ok d' ∧
    d'.tz = some (.zone 1) ∧ d'.wall = 10150 * dayUs + 14 * exHour ∧
    vtzEnv.instant d' = 10150 * dayUs + 12 * exHour :=
  C92_convert_partial vtzEnv 1 _ vtzEnv_zone (by simp) exZone_small exZone_order _ exSummer (by decide) (by decide)
    (by decide) exZone_current (exZone_step _ (by decide) (by decide)) (exZone_step _ (by decide) (by decide))
    (exZone_base _) (by decide) (by decide) (by decide) (by decide)

/-- C92 is false: converting an event into a VTIMEZONE may move it by an hour. -/
theorem C92_convert_fails : ∃ (e : Env) (obs : List Observance) (s t : Span) (b b' : DT),
    IsVtimezone e 1 obs ∧ e.mkSpan s = .ok s ∧ e.convertTimezone s (some (.zone 1)) = .ok t ∧
    s.begin? = some b ∧ t.begin? = some b' ∧ e.instant b' = e.instant b + exHour :=
  ⟨vtzEnv, [exSummer, exWinter],
    ⟨.event, some ⟨10300 * dayUs + 5400000000, false, some (.zone 0)⟩, none, none, .second⟩,
    ⟨.event, some ⟨10300 * dayUs + 5400000000 + 2 * exHour, false, some (.zone 1)⟩, none, none, .second⟩,
    _, _, vtzEnv_zone, by decide +kernel, by decide +kernel, rfl, rfl, by decide +kernel⟩

end Ics
