import Verif.Proofs.Period
import Verif.Props.Duration
import Verif.Props.Datetime

/-
C19 (periods).  Every theorem holds for every `World`, i.e. for every behaviour of the time zone
objects.
-/
namespace Ics

/-- C19 is false, and for every period: whatever `PeriodConverter.serialize` writes, for any span, with
any parameters and in any context, `PeriodConverter.parse` rejects with `ValueError`, with any
parameters and in any context.  (`FORMATS` of the period converter is that of dates.) -/
theorem C19_fails (w : World) (s : Span) (params params' : Params) (ctx ctx' : Ctx) (text : Str)
    (h : periodSerialize w s params ctx = .ok (text, params', ctx')) (p : Params) (c : Ctx) :
    periodParse w text p c = .error .valueError := by
  unfold periodSerialize at h
  split at h
  · cases h
  · rename_i b hb
    split at h
    · rename_i d hd
      cases h1 : serializeDt w b params ctx with
      | error e => rw [h1] at h; cases h
      | ok r =>
        obtain ⟨t, p1, c1⟩ := r
        rw [h1] at h
        cases h
        rw [periodParse, partitionSlash_append (serializeDt_noSlash h1)]
        dsimp only
        rw [parseDt_base_fails h1]
        split <;> rfl
    · cases h0 : w.effEnd s with
      | error e => rw [h0] at h; cases h
      | ok en =>
        rw [h0] at h
        cases en with
        | none => cases h
        | some en =>
          cases h1 : serializeDt w b params ctx with
          | error e => simp only [bind, Except.bind, h1] at h; cases h
          | ok r =>
            obtain ⟨t, p1, c1⟩ := r
            cases h2 : serializeDt w en params c1 with
            | error e => simp only [bind, Except.bind, h1, h2] at h; cases h
            | ok r =>
              obtain ⟨u, p2, c2⟩ := r
              simp only [bind, Except.bind, h1, h2] at h
              split at h
              · cases h
                rw [periodParse, partitionSlash_append (serializeDt_noSlash h1)]
                dsimp only
                rw [parseDt_base_fails h1]
                split <;> rfl
              · cases h

/-- 2024-02-29 13:37:42 UTC for 90 minutes is written, but cannot be read. -/
example : periodSerialize exWorld ⟨.plain, some ⟨63844810662000000, false, some (.zone 0)⟩, none,
      some 5400000000, .second⟩ [] (some []) =
      .ok ("20240229T133742Z/PT1H30M".toList, [], some []) ∧
    periodParse exWorld "20240229T133742Z/PT1H30M".toList [] (some []) = .error .valueError := by
  decide +kernel

/-- C19, partial: for a period given by a naive start and a duration of whole seconds, the text is the
start, a slash and the duration, which the converters for date-times and durations read back.
Missing: the period converter itself does not read it (`C19_fails`). -/
theorem C19_start_partial (w : World) (s : Span) (secs : Int) (wall : Int) (fold : Bool)
    (hb : s.begin? = some ⟨wall * 1000000, fold, none⟩) (hd : s.dur? = some (secs * 1000000))
    (h : 0 ≤ wall * 1000000 ∧ wall * 1000000 < maxWall)
    (hy : w.padYear = true ∨ 364877 * 86400000000 ≤ wall * 1000000)
    (hr : tdMin ≤ secs * 1000000 ∧ secs * 1000000 ≤ tdMax) (params : Params)
    (hp : dictGet? params "TZID".toList = none) (ctx : Ctx) :
    ∃ a b, periodSerialize w s params ctx = .ok (a ++ '/' :: b, params, ctx) ∧ '/' ∉ a ∧
      parseDt w datetimeFormats a params ctx = .ok (⟨wall * 1000000, false, none⟩, params, ctx) ∧
      durationParse b = .ok (secs * 1000000) := by
  obtain ⟨a, h1, h2⟩ := C16_naive_partial w (wall * 1000000) fold h hy params hp ctx
  refine ⟨a, durationSerialize (secs * 1000000), ?_, serializeDt_noSlash h1, ?_, C13_roundtrip _ hr⟩
  · rw [periodSerialize]
    simp only [hb, hd, h1, bind, Except.bind]
  · rw [h2]
    have : wall * 1000000 % 1000000 = 0 := by omega
    simp only [this, Int.sub_zero]

/-- C19, partial: for a period given by a start and an end in UTC, the text is the two times with a
slash between them, which the converter for date-times reads back. -/
theorem C19_explicit_partial (w : World) (s : Span) (wall wall' : Int) (fold fold' : Bool) (n n' : Nat)
    (hb : s.begin? = some ⟨wall * 1000000, fold, some (.zone n)⟩)
    (he : s.end? = some ⟨wall' * 1000000, fold', some (.zone n')⟩) (hd : s.dur? = none)
    (hn : w.isUtc n = true) (hn' : w.isUtc n' = true)
    (h : 0 ≤ wall * 1000000 ∧ wall * 1000000 < maxWall)
    (h' : 0 ≤ wall' * 1000000 ∧ wall' * 1000000 < maxWall)
    (hy : w.padYear = true ∨ 364877 * 86400000000 ≤ wall * 1000000)
    (hy' : w.padYear = true ∨ 364877 * 86400000000 ≤ wall' * 1000000)
    (ctx : Ctx) :
    ∃ a b, periodSerialize w s [] ctx = .ok (a ++ '/' :: b, [], ctx) ∧ '/' ∉ a ∧
      parseDt w datetimeFormats a [] ctx =
        .ok (⟨wall * 1000000, false, some (.zone w.utc)⟩, [], ctx) ∧
      parseDt w datetimeFormats b [] ctx =
        .ok (⟨wall' * 1000000, false, some (.zone w.utc)⟩, [], ctx) := by
  obtain ⟨a, h1, h2⟩ := C16_utc_partial w (wall * 1000000) fold n hn h hy [] rfl ctx
  obtain ⟨b, h3, h4⟩ := C16_utc_partial w (wall' * 1000000) fold' n' hn' h' hy' [] rfl ctx
  refine ⟨a ++ ['Z'], b ++ ['Z'], ?_, serializeDt_noSlash h1, ?_, ?_⟩
  · rw [periodSerialize]
    simp only [hb, hd, Env.effEnd, he, h1, h3, bind, Except.bind]
    rfl
  · rw [h2]
    have : wall * 1000000 % 1000000 = 0 := by omega
    simp only [this, Int.sub_zero]
  · rw [h4]
    have : wall' * 1000000 % 1000000 = 0 := by omega
    simp only [this, Int.sub_zero]

/-- What the period converter does read: two dates, although a period has no such form.  `a` and `b`
are midnights. -/
theorem C19_dates_partial (w : World) (a b : Int) (ha : a % 86400000000 = 0) (hb : b % 86400000000 = 0)
    (ha0 : 0 ≤ a ∧ a < maxWall) (hb0 : 0 ≤ b ∧ b < maxWall) (hab : a ≤ b)
    (hy : w.padYear = true ∨ 364877 * 86400000000 ≤ a)
    (params : Params) (hp : dictGet? params "TZID".toList = none) (ctx : Ctx) :
    periodParse w (serializeDate w a ++ '/' :: serializeDate w b) params ctx =
      .ok (⟨.plain, some ⟨a, false, none⟩, some ⟨b, false, none⟩, none, .second⟩, params, ctx) := by
  have hyb : w.padYear = true ∨ 364877 * 86400000000 ≤ b := by
    rcases hy with h | h
    · exact .inl h
    · right; omega
  have key : ∀ x : Int, x % 86400000000 = 0 → 0 ≤ x ∧ x < maxWall →
      (w.padYear = true ∨ 364877 * 86400000000 ≤ x) →
      parseDt w baseFormats (serializeDate w x) params ctx = .ok (⟨x, false, none⟩, params, ctx) ∧
      (∀ c ∈ serializeDate w x, isDigit c = true ∨ c = 'T') := by
    intro x hx hx0 hyx
    obtain ⟨h1, h2, h3⟩ := strptime_dateStr (pad := w.padYear) (fieldsOf_ok hx0)
      (hyx.imp_right (year_ge_1000 hx0))
    refine ⟨?_, h3⟩
    rw [serializeDate, parseDt_text h3 (by rw [h2]; decide) (by intro he; simp [he] at h2) h1
      (wallOf_date hx0), paramTz_none hp]
    simp only [dictErase_absent _ _ hp, dayUs, hx, Int.sub_zero]
  obtain ⟨k1, c1⟩ := key a ha ha0 hy
  obtain ⟨k2, c2⟩ := key b hb hb0 hyb
  have hs : '/' ∉ serializeDate w a := by
    intro hm
    rcases c1 _ hm with h | h <;> exact absurd h (by decide)
  have hP : (serializeDate w b).head? ≠ some 'P' := by
    intro hm
    rcases c2 _ (List.mem_of_mem_head? hm) with h | h <;> exact absurd h (by decide)
  rw [periodParse, partitionSlash_append hs]
  dsimp only
  rw [if_neg hP, k1]
  simp only [bind, Except.bind, k2]
  have e : w.mkSpan ⟨.plain, some ⟨a, false, none⟩, some ⟨b, false, none⟩, none, .second⟩ =
      .ok ⟨.plain, some ⟨a, false, none⟩, some ⟨b, false, none⟩, none, .second⟩ := by
    have h1 : ¬ (b < a) := by omega
    have h2 : nearlyZero ((b - a) % 1000000) = true := by
      have : (b - a) % 1000000 = 0 := by omega
      rw [this]; decide
    simp [Env.mkSpan, Env.validate, Env.validateBase, Env.validatePrecision, Env.validateEnd, ifGiven,
      Env.gt, Env.cmp, Env.sub, Env.validateOneDay, Env.validateExtent, Env.effDur, timedeltaCache,
      raiseIf, bind, Except.bind, Except.map, h1, h2]
  rw [e]

example : periodParse exWorld "20240228/20240301".toList [] none = .ok
    (⟨.plain, some ⟨63844675200000000, false, none⟩, some ⟨63844848000000000, false, none⟩, none,
      .second⟩, [], none) := by decide +kernel

end Ics
