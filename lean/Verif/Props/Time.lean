import Verif.Model.Time
import Verif.Props.Datetime
import Mathlib.Tactic.Ring

/-
C70: times of day survive being written and parsed.
-/
namespace Ics

theorem strptime_timeStr {us : Int} (h : 0 ≤ us ∧ us < 86400000000) :
    strptimeOfDay (timeStr us) = .ok (us - us % 1000000) ∧ (timeStr us).length = 6 ∧
      ∀ c ∈ timeStr us, isDigit c = true ∨ c = 'T' := by
  obtain ⟨n, hn⟩ : ∃ n, (us / 1000000).toNat = n := ⟨_, rfl⟩
  have hlt : n < 86400 := by omega
  have hus : us - us % 1000000 = ((n : Nat) : Int) * 1000000 := by omega
  unfold timeStr
  rw [hn]
  simp only [(pad2_spec (n / 3600) (by omega)).1, (pad2_spec (n % 3600 / 60) (by omega)).1,
    (pad2_spec (n % 60) (by omega)).1, List.cons_append, List.nil_append]
  refine ⟨?_, rfl, ?_⟩
  · have e3 : n / 3600 ≤ 23 := by omega
    have e4 : n % 3600 / 60 ≤ 59 := by omega
    have e5 : n % 60 ≤ 61 := by omega
    simp only [strptimeOfDay, strptimeTime, hourField, minuteField, secondField, num2_pad2 (n / 3600) (by omega),
      num2_pad2 (n % 3600 / 60) (by omega), num2_pad2 (n % 60) (by omega), Option.filter, e3, e4, e5, decide_true, if_true]
    rw [if_pos (by omega), hus]
    congr 2
    have : n / 3600 * 3600 + n % 3600 / 60 * 60 + n % 60 = n := by omega
    rw [this]
  · intro c hc
    simp only [List.mem_cons, List.not_mem_nil, or_false] at hc
    rcases hc with h | h | h | h | h | h <;> (left; rw [h]; exact isDigit_digitChar _ (by omega))

theorem parseTime_text {w : World} {s : Str} {us : Int} (hs : ∀ c ∈ s, isDigit c = true ∨ c = 'T')
    (hl : s.length ∈ timeFormats) (hne : s ≠ []) (hf : strptimeOfDay s = .ok us) (params : Params) (ctx : Ctx) :
    parseTime w s params ctx =
      match paramTz params with
      | .error e => .error e
      | .ok none => .ok (⟨us, false, none⟩, dictErase params "TZID".toList, ctx)
      | .ok (some name) =>
        match selectTz w ctx name with
        | .error e => .error e
        | .ok (z, ctx) => .ok (⟨us, false, some (.zone z)⟩, dictErase params "TZID".toList, ctx) := by
  obtain ⟨c, hc⟩ : ∃ c, s.getLast? = some c := by
    rw [List.getLast?_eq_some_getLast hne]; exact ⟨_, rfl⟩
  have hmem : c ∈ s := List.mem_of_getLast? hc
  have hz : ¬ (c = 'Z' ∨ c = 'z') := by
    rcases hs c hmem with h | h
    · rintro (rfl | rfl) <;> exact absurd h (by decide)
    · rintro (rfl | rfl) <;> exact absurd h (by decide)
  unfold parseTime
  rw [hc, stripDt_id hs]
  simp only [hz, hl, not_true_eq_false, if_false, hf]
  cases paramTz params with
  | error e => rfl
  | ok tz => cases tz <;> rfl

/-- C70: a time without a zone is written as six digits and read back with the fraction of a second cut off. -/
theorem C70_naive (w : World) (us : Int) (fold : Bool) (h : 0 ≤ us ∧ us < 86400000000) (params : Params)
    (hp : dictGet? params "TZID".toList = none) (ctx : Ctx) :
    ∃ text, serializeTime w ⟨us, fold, none⟩ params ctx = .ok (text, params, ctx) ∧ text.length = 6 ∧
      (∀ c ∈ text, isDigit c = true ∨ c = 'T') ∧
      parseTime w text params ctx = .ok (⟨us - us % 1000000, false, none⟩, params, ctx) := by
  obtain ⟨h1, h2, h3⟩ := strptime_timeStr h
  refine ⟨_, rfl, h2, h3, ?_⟩
  rw [parseTime_text h3 (by rw [h2]; decide) (by intro he; simp [he] at h2) h1, paramTz_none hp]
  simp only [dictErase_absent _ _ hp]

/-- C70: a time in a zone for which the library has a `Timezone` object with a name is written with that `TZID` and
read back in that zone.

Missing for the full claim: local time, which loses its zone, and UTC, see `C70_utc_fails`. -/
theorem C70_zone_partial (w : World) (us : Int) (fold : Bool) (t : Tz) (z : Nat) (hc : w.conv t = .timezone z)
    (hz : w.tzid z ≠ []) (h : 0 ≤ us ∧ us < 86400000000) (params : Params) (avail : List (Str × Nat))
    (ha : dictGet? avail (w.tzid z) = none ∨ dictGet? avail (w.tzid z) = some z) :
    ∃ text params' avail', serializeTime w ⟨us, fold, some t⟩ params (some avail) = .ok (text, params', some avail') ∧
      text.length = 6 ∧ 'Z' ∉ text ∧ dictGet? params' "TZID".toList = some [⟨false, w.tzid z⟩] ∧
      parseTime w text params' (some avail') =
        .ok (⟨us - us % 1000000, false, some (.zone z)⟩, dictErase params' "TZID".toList, some avail') := by
  obtain ⟨h1, h2, h3⟩ := strptime_timeStr h
  have hg : dictGet? (dictSetDefault avail (w.tzid z) z) (w.tzid z) = some z := by
    unfold dictSetDefault
    rcases ha with ha | ha
    · rw [ha]; exact dictGet_set _ _ _
    · simp only [ha]
  refine ⟨timeStr us, dictSet params "TZID".toList [⟨false, w.tzid z⟩], dictSetDefault avail (w.tzid z) z, ?_, h2,
    ?_, dictGet_set _ _ _, ?_⟩
  · simp only [serializeTime, hc]
  · intro hZ
    rcases h3 _ hZ with h | h <;> exact absurd h (by decide)
  · have hp : paramTz (dictSet params "TZID".toList [⟨false, w.tzid z⟩]) = .ok (some (w.tzid z)) := by
      simp only [paramTz, dictGet_set, if_neg hz]
    rw [parseTime_text h3 (by rw [h2]; decide) (by intro he; simp [he] at h2) h1, hp]
    simp only [selectTz, Option.bind, hg]

/-- C70: a zone that is already known under the `TZID` stays, and the others as well. -/
theorem C70_known (w : World) (us : Int) (fold : Bool) (t : Tz) (z z' : Nat) (hc : w.conv t = .timezone z)
    (params : Params) (avail : List (Str × Nat)) (ha : dictGet? avail (w.tzid z) = some z') :
    ∃ text params', serializeTime w ⟨us, fold, some t⟩ params (some avail) = .ok (text, params', some avail) := by
  refine ⟨timeStr us, dictSet params "TZID".toList [⟨false, w.tzid z⟩], ?_⟩
  simp only [serializeTime, hc, dictSetDefault, ha]

/-- C70: two digits are an hour, four digits an hour and a minute. -/
theorem C70_short (w : World) (hour minute : Nat) (hh : hour < 24) (hm : minute < 60) (params : Params)
    (hp : dictGet? params "TZID".toList = none) (ctx : Ctx) :
    parseTime w (pad2 hour) params ctx = .ok (⟨hour * 3600000000, false, none⟩, params, ctx) ∧
    parseTime w (pad2 hour ++ pad2 minute) params ctx =
      .ok (⟨hour * 3600000000 + minute * 60000000, false, none⟩, params, ctx) := by
  have e1 := (pad2_spec hour (by omega)).1
  have e2 := (pad2_spec minute (by omega)).1
  have h3 : hour ≤ 23 := by omega
  have h4 : minute ≤ 59 := by omega
  constructor
  · have hs : strptimeOfDay (pad2 hour) = .ok (hour * 3600000000) := by
      rw [e1]
      simp only [strptimeOfDay, strptimeTime, hourField, num2_pad2 hour (by omega), Option.filter, h3, decide_true, if_true,
        Option.map]
      rw [if_pos (by decide)]
      have e : ∀ a b : Int, a = b → (Except.ok a : Except PyErr Int) = .ok b := fun _ _ h => by rw [h]
      apply e
      push_cast
      ring
    rw [parseTime_text ?_ (by rw [e1]; exact (by decide : 2 ∈ timeFormats)) (by rw [e1]; simp) hs, paramTz_none hp]
    · simp only [dictErase_absent _ _ hp]
    · intro c hc
      rw [e1] at hc
      simp only [List.mem_cons, List.not_mem_nil, or_false] at hc
      rcases hc with h | h <;> (left; rw [h]; exact isDigit_digitChar _ (by omega))
  · have hs : strptimeOfDay (pad2 hour ++ pad2 minute) = .ok (hour * 3600000000 + minute * 60000000) := by
      rw [e1, e2]
      simp only [List.cons_append, List.nil_append, strptimeOfDay, strptimeTime, hourField, minuteField,
        num2_pad2 hour (by omega), num2_pad2 minute (by omega), Option.filter, h3, h4, decide_true, if_true]
      rw [if_pos (by decide)]
      have e : ∀ a b : Int, a = b → (Except.ok a : Except PyErr Int) = .ok b := fun _ _ h => by rw [h]
      apply e
      push_cast
      ring
    rw [parseTime_text ?_ (by rw [e1, e2]; exact (by decide : 4 ∈ timeFormats)) (by rw [e1]; simp) hs, paramTz_none hp]
    · simp only [dictErase_absent _ _ hp]
    · intro c hc
      rw [e1, e2] at hc
      simp only [List.cons_append, List.nil_append, List.mem_cons, List.not_mem_nil, or_false] at hc
      rcases hc with h | h | h | h <;> (left; rw [h]; exact isDigit_digitChar _ (by omega))

/-- C70: a time that ends in `Z` or `z` is read as a time in UTC. -/
theorem C70_read_utc (w : World) (us : Int) (h : 0 ≤ us ∧ us < 86400000000) (z : Char) (hz : z = 'Z' ∨ z = 'z')
    (params : Params) (hp : dictGet? params "TZID".toList = none) (ctx : Ctx) :
    parseTime w (timeStr us ++ [z]) params ctx = .ok (⟨us - us % 1000000, false, some (.zone w.utc)⟩, params, ctx) := by
  obtain ⟨h1, h2, h3⟩ := strptime_timeStr h
  have hst : stripDt (timeStr us ++ [z]) = timeStr us := by
    rw [stripDt, List.filter_append, ← stripDt, stripDt_id h3]
    rcases hz with rfl | rfl <;> simp
  have hl : (timeStr us).length ∈ timeFormats := by rw [h2]; decide
  unfold parseTime
  rw [paramTz_none hp, hst]
  simp only [List.getLast?_append, List.getLast?_singleton, Option.some_or, hl, not_true_eq_false, if_false, h1, hz,
    if_true, dictErase_absent _ _ hp]

/-- C70: a `Z` together with a `TZID` is refused, whatever the text before it is. -/
theorem C70_utc_tzid (w : World) (value : Str) (params : Params) (ctx : Ctx) (name : Str) (q : Bool) (hn : name ≠ [])
    (hp : dictGet? params "TZID".toList = some [⟨q, name⟩]) :
    parseTime w (value ++ ['Z']) params ctx = .error .valueError := by
  have hp' : paramTz params = .ok (some name) := by
    simp only [paramTz, hp, if_neg hn]
  unfold parseTime
  rw [hp']
  simp only [List.getLast?_append, List.getLast?_singleton, Option.some_or, true_or, if_true]
  split
  · rfl
  · split
    · rename_i e he
      unfold strptimeOfDay at he
      split at he
      · injection he with he; rw [← he]
      · split at he
        · cases he
        · injection he with he; rw [← he]
    · rfl

/-- C70 is false for UTC: a time of day is never written with a `Z`.  The time in UTC that was read from a text with a
`Z` is written without it, with a `TZID` if UTC has a `Timezone` object; a value that is read in this form is not
written in the same form. -/
theorem C70_utc_fails (w : World) (z : Nat) (hc : w.conv (.zone w.utc) = .timezone z) (us : Int)
    (h : 0 ≤ us ∧ us < 86400000000) (avail : List (Str × Nat)) :
    ∃ t text params ctx, parseTime w (timeStr us ++ ['Z']) [] (some avail) = .ok (t, [], some avail) ∧
      serializeTime w t [] (some avail) = .ok (text, params, ctx) ∧ 'Z' ∉ text ∧
      params = [("TZID".toList, [⟨false, w.tzid z⟩])] := by
  refine ⟨_, timeStr (us - us % 1000000), _, some (dictSetDefault avail (w.tzid z) z),
    C70_read_utc w us h 'Z' (.inl rfl) [] rfl (some avail), ?_, ?_, rfl⟩
  · simp only [serializeTime, hc]
    rfl
  · intro hZ
    rcases (strptime_timeStr (us := us - us % 1000000) (by omega)).2.2 _ hZ with h | h <;> exact absurd h (by decide)

/-- C70: a time in local time is written without its zone and read back without zone. -/
theorem C70_local_fails (w : World) (us : Int) (fold : Bool) (t : Tz) (hc : w.conv t = .localTime)
    (h : 0 ≤ us ∧ us < 86400000000) (ctx : Ctx) :
    ∃ text, serializeTime w ⟨us, fold, some t⟩ [] ctx = .ok (text, [], ctx) ∧
      parseTime w text [] ctx = .ok (⟨us - us % 1000000, false, none⟩, [], ctx) := by
  obtain ⟨text, h1, _, _, h2⟩ := C70_naive w us fold h [] rfl ctx
  refine ⟨text, ?_, h2⟩
  rw [← h1]
  simp only [serializeTime, hc]

/-- C70: whatever is accepted is a time of the day in whole seconds. -/
theorem C70_range (w : World) (value : Str) (params params' : Params) (ctx ctx' : Ctx) (t : TimeVal)
    (h : parseTime w value params ctx = .ok (t, params', ctx')) :
    0 ≤ t.us ∧ t.us < 86400000000 ∧ t.us % 1000000 = 0 ∧ t.fold = false := by
  have key : ∀ s us, strptimeOfDay s = .ok us → 0 ≤ us ∧ us < 86400000000 ∧ us % 1000000 = 0 := by
    intro s us hs
    have hh : ∀ a b n, hourField a b = some n → n < 24 := by
      intro a b n hn
      unfold hourField at hn
      rw [Option.filter_eq_some_iff] at hn
      have := of_decide_eq_true hn.2
      omega
    have hm : ∀ a b n, minuteField a b = some n → n < 60 := by
      intro a b n hn
      unfold minuteField at hn
      rw [Option.filter_eq_some_iff] at hn
      have := of_decide_eq_true hn.2
      omega
    unfold strptimeOfDay at hs
    split at hs
    · cases hs
    · rename_i f hf
      split at hs
      · rename_i hsec
        injection hs with hs
        have hf' : f.hour < 24 ∧ f.minute < 60 := by
          unfold strptimeTime at hf
          split at hf
          · rw [Option.map_eq_some_iff] at hf
            obtain ⟨n, hn, rfl⟩ := hf
            exact ⟨hh _ _ _ hn, (by decide : 0 < 60)⟩
          · split at hf
            · rename_i h1 h2
              cases hf
              exact ⟨hh _ _ _ h1, hm _ _ _ h2⟩
            · cases hf
          · split at hf
            · rename_i h1 h2 _
              cases hf
              exact ⟨hh _ _ _ h1, hm _ _ _ h2⟩
            · cases hf
          · cases hf
        omega
      · cases hs
  unfold parseTime at h
  split at h
  · cases h
  · split at h
    · cases h
    · dsimp only at h
      split at h
      · cases h
      · split at h
        · cases h
        · rename_i us hus
          have k := key _ _ hus
          split at h
          · split at h
            · cases h
            · cases h
              exact ⟨k.1, k.2.1, k.2.2, rfl⟩
          · split at h
            · cases h
              exact ⟨k.1, k.2.1, k.2.2, rfl⟩
            · split at h
              · cases h
              · cases h
                exact ⟨k.1, k.2.1, k.2.2, rfl⟩

/-! ### Examples -/

/-- 13:37:42.5, written and read. -/
example : serializeTime exWorld ⟨49062500000, false, none⟩ [] none = .ok ("133742".toList, [], none) ∧
    parseTime exWorld "133742".toList [] none = .ok (⟨49062000000, false, none⟩, [], none) ∧
    parseTime exWorld "13:37".toList [] none = .error .valueError ∧
    parseTime exWorld "235960".toList [] none = .error .valueError := by decide +kernel

/-- 13:37:42 in the zone X/Y. -/
example : exWorld.conv (.zone 1) = .timezone 1 ∧ exWorld.tzid 1 ≠ [] ∧
    serializeTime exWorld ⟨49062000000, true, some (.zone 1)⟩ [] (some []) =
      .ok ("133742".toList, [("TZID".toList, [⟨false, "X/Y".toList⟩])], some [("X/Y".toList, 1)]) := by decide +kernel

/-- A world in which UTC has a `Timezone` object. -/
example : ∃ w : World, w.conv (.zone w.utc) = .timezone 0 :=
  ⟨{ exWorld with conv := fun _ => .timezone 0 }, rfl⟩

end Ics
