import Verif.Proofs.Datetime

/-
C16 (date-times and dates round trip), C17 (date-times with a time zone).
Every theorem holds for every `World`, i.e. for every behaviour of the time zone objects.
-/
namespace Ics

/-- A small world for the examples: zone 0 is UTC, zone 1 is a `Timezone` named `X/Y` one hour ahead,
anything else is local time. -/
def exWorld : World where
  off n _ _ := if n = 1 then 3600000000 else 0
  fromUtc n u := (if n = 1 then u + 3600000000 else u, false)
  locOff _ _ := 0
  locFromUtc u := (u, false)
  sysOff _ _ := 0
  sysUtcOff _ := 0
  isUtc n := n = 0
  conv t := match t with
    | .zone 1 => .timezone 1
    | _ => .localTime
  tzid _ := "X/Y".toList
  fromTzid _ := none
  gettz _ := none
  utc := 0
  padYear := false

instance : DecidableEq Params := inferInstance
instance : DecidableEq Ctx := inferInstance
instance : DecidableEq (Params × Ctx) := inferInstance
instance : DecidableEq (Str × Params × Ctx) := inferInstance
instance : DecidableEq (DT × Params × Ctx) := inferInstance

/-! ### C16 -/

/-- C16, naive date-times: what is written is read back with the fraction of a second cut off.
`364877 * 86400000000` is 1000-01-01 00:00; earlier years need a platform whose `strftime` pads the
year. -/
theorem C16_naive_partial (w : World) (wall : Int) (fold : Bool) (h : 0 ≤ wall ∧ wall < maxWall)
    (hy : w.padYear = true ∨ 364877 * 86400000000 ≤ wall) (params : Params)
    (hp : dictGet? params "TZID".toList = none) (ctx : Ctx) :
    ∃ text, serializeDt w ⟨wall, fold, none⟩ params ctx = .ok (text, params, ctx) ∧
      parseDt w datetimeFormats text params ctx =
        .ok (⟨wall - wall % 1000000, false, none⟩, params, ctx) := by
  obtain ⟨h1, h2, h3⟩ := strptime_datetimeStr (pad := w.padYear) (fieldsOf_ok h)
    (hy.imp_right (year_ge_1000 h))
  refine ⟨_, rfl, ?_⟩
  rw [parseDt_text h3 (by rw [h2]; decide) (by intro he; simp [he] at h2) h1 (wallOf_fieldsOf h),
    paramTz_none hp]
  simp only [dictErase_absent _ _ hp]

/-- C16, UTC date-times: they are written with a `Z` and read back in UTC. -/
theorem C16_utc_partial (w : World) (wall : Int) (fold : Bool) (n : Nat) (hn : w.isUtc n = true)
    (h : 0 ≤ wall ∧ wall < maxWall)
    (hy : w.padYear = true ∨ 364877 * 86400000000 ≤ wall) (params : Params)
    (hp : dictGet? params "TZID".toList = none) (ctx : Ctx) :
    ∃ text, serializeDt w ⟨wall, fold, some (.zone n)⟩ params ctx = .ok (text ++ ['Z'], params, ctx) ∧
      parseDt w datetimeFormats (text ++ ['Z']) params ctx =
        .ok (⟨wall - wall % 1000000, false, some (.zone w.utc)⟩, params, ctx) := by
  obtain ⟨h1, h2, h3⟩ := strptime_datetimeStr (pad := w.padYear) (fieldsOf_ok h)
    (hy.imp_right (year_ge_1000 h))
  refine ⟨datetimeStr w.padYear (fieldsOf wall), ?_, ?_⟩
  · simp [serializeDt, Env.dtIsUtc, hn]
  · exact parseDt_textZ h3 (by rw [h2]; decide) h1 (wallOf_fieldsOf h) params ctx hp

/-- C16, dates (a date is the wall clock of its midnight). -/
theorem C16_date_partial (w : World) (wall : Int) (hm : wall % 86400000000 = 0) (h : 0 ≤ wall ∧ wall < maxWall)
    (hy : w.padYear = true ∨ 364877 * 86400000000 ≤ wall) (params : Params)
    (hp : dictGet? params "TZID".toList = none) (ctx : Ctx) :
    parseDate w (serializeDate w wall) params ctx = .ok (wall, params, ctx) := by
  obtain ⟨h1, h2, h3⟩ := strptime_dateStr (pad := w.padYear) (fieldsOf_ok h)
    (hy.imp_right (year_ge_1000 h))
  rw [parseDate, serializeDate, parseDt_text h3 (by rw [h2]; decide) (by intro he; simp [he] at h2) h1
    (wallOf_date h), paramTz_none hp]
  simp only [dictErase_absent _ _ hp, dayUs, hm]
  simp [hm]

/-- 2024-02-29 13:37:42.5, and the text written for it. -/
example : serializeDt exWorld ⟨63844810662500000, false, none⟩ [] none =
    .ok ("20240229T133742".toList, [], none) ∧
    364877 * 86400000000 ≤ (63844810662500000 : Int) ∧ (63844810662500000 : Int) < maxWall := by
  decide +kernel

/-- C16 is false for years before 1000 where `strftime` does not pad the year, in every world:
0999-01-01 is written as a text that cannot be read … -/
theorem C16_year999_fails (w : World) (hw : w.padYear = false) (ctx : Ctx) :
    ∃ wall, 0 ≤ wall ∧ wall < maxWall ∧ wall % 86400000000 = 0 ∧
      parseDate w (serializeDate w wall) [] ctx = .error .valueError := by
  refine ⟨364512 * 86400000000, by decide, by decide, by decide, ?_⟩
  have e : serializeDate w (364512 * 86400000000) = "9990101".toList := by
    simp only [serializeDate, hw]; decide +kernel
  rw [e, parseDate, parseDt, paramTz_none rfl]
  rw [show "9990101".toList.getLast? = some '1' by decide]
  dsimp only
  rw [if_pos (by decide)]

/-- … and 0099-01-01 is read back as 9901-01-01. -/
theorem C16_year99_fails (w : World) (hw : w.padYear = false) (ctx : Ctx) :
    serializeDate w (35794 * 86400000000) = "990101".toList ∧
    parseDate w (serializeDate w (35794 * 86400000000)) [] ctx =
      .ok (3615900 * 86400000000, [], ctx) ∧
    fieldsOf (35794 * 86400000000) = ⟨99, 1, 1, 0, 0, 0⟩ ∧
    fieldsOf (3615900 * 86400000000) = ⟨9901, 1, 1, 0, 0, 0⟩ := by
  have e : serializeDate w (35794 * 86400000000) = "990101".toList := by
    simp only [serializeDate, hw]; decide +kernel
  refine ⟨e, ?_, by decide +kernel, by decide +kernel⟩
  have hw : wallOf ⟨9901, 1, 1, 0, 0, 0⟩ = .ok (3615900 * 86400000000) := by decide +kernel
  rw [e, parseDate, parseDt_text (f := ⟨9901, 1, 1, 0, 0, 0⟩) (by decide +kernel) (by decide +kernel) (by decide)
    (by decide +kernel) hw, paramTz_none rfl]
  rfl

/-! ### C17 -/

/-- C17, partial: a date-time in a zone for which the library has a `Timezone` object `z` (a named
one) is written as its wall clock without `Z`, with exactly the parameter `TZID` naming the zone; the
zone is registered under that name, and reading gives the same wall clock (to the second) in that
zone.  Missing: date-times whose zone is local time, which lose their zone (`C17_local_fails`); a
zone whose name is already taken by another one in the context is not registered; `fold` is not
kept. -/
theorem C17_partial (w : World) (wall : Int) (fold : Bool) (t : Tz) (z : Nat)
    (hu : w.dtIsUtc ⟨wall, fold, some t⟩ = false) (hc : w.conv t = .timezone z)
    (hz : w.tzid z ≠ []) (h : 0 ≤ wall ∧ wall < maxWall)
    (hy : w.padYear = true ∨ 364877 * 86400000000 ≤ wall) (params : Params)
    (avail : List (Str × Nat)) (ha : dictGet? avail (w.tzid z) = none ∨
      dictGet? avail (w.tzid z) = some z) :
    ∃ text params' avail',
      serializeDt w ⟨wall, fold, some t⟩ params (some avail) = .ok (text, params', some avail') ∧
      serializeDt w ⟨wall, fold, none⟩ params (some avail) = .ok (text, params, some avail) ∧
      'Z' ∉ text ∧
      dictGet? params' "TZID".toList = some [⟨false, w.tzid z⟩] ∧
      dictGet? avail' (w.tzid z) = some z ∧
      parseDt w datetimeFormats text params' (some avail') =
        .ok (⟨wall - wall % 1000000, false, some (.zone z)⟩, dictErase params' "TZID".toList,
          some avail') := by
  obtain ⟨h1, h2, h3⟩ := strptime_datetimeStr (pad := w.padYear) (fieldsOf_ok h)
    (hy.imp_right (year_ge_1000 h))
  have hg : dictGet? (dictSetDefault avail (w.tzid z) z) (w.tzid z) = some z := by
    unfold dictSetDefault
    rcases ha with ha | ha
    · rw [ha]; exact dictGet_set _ _ _
    · simp only [ha]
  refine ⟨datetimeStr w.padYear (fieldsOf wall), dictSet params "TZID".toList [⟨false, w.tzid z⟩],
    dictSetDefault avail (w.tzid z) z, ?_, rfl, ?_, dictGet_set _ _ _, hg, ?_⟩
  · simp only [serializeDt, hu, hc]; rfl
  · intro hZ
    rcases h3 _ hZ with h | h <;> exact absurd h (by decide)
  · have hp : paramTz (dictSet params "TZID".toList [⟨false, w.tzid z⟩]) = .ok (some (w.tzid z)) := by
      simp only [paramTz, dictGet_set, if_neg hz]
    rw [parseDt_text h3 (by rw [h2]; decide) (by intro he; simp [he] at h2) h1 (wallOf_fieldsOf h), hp]
    simp only [selectTz, Option.bind, hg]

example : ∃ params', serializeDt exWorld ⟨63844810662000000, true, some (.zone 1)⟩ [] (some []) =
    .ok ("20240229T133742".toList, params', some [("X/Y".toList, 1)]) := ⟨_, rfl⟩

/-- C17 is false for local time: the date-time is written without any `TZID` and comes back naive. -/
theorem C17_local_fails (w : World) (wall : Int) (t : Tz)
    (hu : w.dtIsUtc ⟨wall, false, some t⟩ = false) (hc : w.conv t = .localTime)
    (h : 0 ≤ wall ∧ wall < maxWall)
    (hy : w.padYear = true ∨ 364877 * 86400000000 ≤ wall) (ctx : Ctx) :
    ∃ text, serializeDt w ⟨wall, false, some t⟩ [] ctx = .ok (text, [], ctx) ∧
      parseDt w datetimeFormats text [] ctx = .ok (⟨wall - wall % 1000000, false, none⟩, [], ctx) := by
  obtain ⟨text, h1, h2⟩ := C16_naive_partial w wall false h hy [] rfl ctx
  refine ⟨text, ?_, h2⟩
  rw [← h1]
  simp only [serializeDt, hu, hc]; rfl

example : exWorld.dtIsUtc ⟨63844810662000000, false, some (.loc 0)⟩ = false ∧
    exWorld.conv (.loc 0) = .localTime := by decide +kernel

/-- C17: a zone that has no `Timezone` counterpart cannot be written. -/
theorem C17_unserializable (w : World) (d : DT) (t : Tz) (ht : d.tz = some t)
    (hu : w.dtIsUtc d = false) (hc : w.conv t = .unserializable) (params : Params) (ctx : Ctx) :
    serializeDt w d params ctx = .error .valueError := by
  simp only [serializeDt, hu, ht, hc]; rfl

/-- C17: text with both `Z` and a `TZID` is rejected. -/
theorem C17_rejects_utc_and_tzid (w : World) (formats : List Nat) (s : Str) (v : PVal)
    (hv : v.text ≠ []) (params : Params) (hp : dictGet? params "TZID".toList = some [v]) (ctx : Ctx) :
    parseDt w formats (s ++ ['Z']) params ctx = .error .valueError := by
  unfold parseDt
  simp only [paramTz, hp, if_neg hv, List.getLast?_append, List.getLast?_singleton, Option.some_or,
    true_or, decide_true, if_true]
  split
  · rfl
  · split
    · rfl
    · split
      · rename_i f _ e he
        simp only [wallOf] at he
        split at he
        · cases he
        · cases he; rfl
      · rfl

/-- C17: more than one `TZID` is rejected. -/
theorem C17_rejects_multiple (w : World) (formats : List Nat) (s : Str) (v1 v2 : PVal)
    (vs : List PVal) (params : Params) (hp : dictGet? params "TZID".toList = some (v1 :: v2 :: vs))
    (ctx : Ctx) : parseDt w formats s params ctx = .error .valueError := by
  simp only [parseDt, paramTz, hp]

example : parseDt exWorld datetimeFormats "20240229T133742Z".toList
    [("TZID".toList, [⟨false, "X/Y".toList⟩])] (some [("X/Y".toList, 1)]) = .error .valueError := by
  decide +kernel

end Ics
