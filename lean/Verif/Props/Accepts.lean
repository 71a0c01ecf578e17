import Verif.Proofs.Accepts
import Verif.Props.Datetime

/-
C76: exactly which texts are read as durations, UTC offsets, date-times and dates, and as what.
-/
namespace Ics

/-- C76 for durations: a text is read as a duration exactly if it is an optional sign, a `P` and a sequence of numbers of
at most 4300 digits with distinct units in any order, each possibly after a `T`, possibly with a `T` at the end, and the
sum is in the range of `timedelta`; and then the sum is what is read. -/
theorem C76_duration (s : Str) (us : Int) :
    durationParse s = .ok us ↔
      ∃ v, LooseDuration s v ∧ us = v * 1000000 ∧
        -(999999999 * 86400 * 1000000) ≤ us ∧ us < (999999999 + 1) * 86400 * 1000000 := by
  rw [durationParse_iff]
  have h1 : tdMin = -(999999999 * 86400 * 1000000) := by decide
  have h2 : tdMax + 1 = (999999999 + 1) * 86400 * 1000000 := by decide
  rw [← h1, ← h2]
  simp only [Int.lt_add_one_iff]

example : LooseDuration "-P1DT2H3M".toList (-93780) := by
  have h := LooseDuration.neg (.part (ds := "1".toList) (n := 1) (u := 'D') false ⟨by decide, by decide, by decide⟩ (by decide)
    (by decide) (.part (ds := "2".toList) (n := 2) (u := 'H') true ⟨by decide, by decide, by decide⟩ (by decide)
    (by decide) (.part (ds := "3".toList) (n := 3) (u := 'M') false ⟨by decide, by decide, by decide⟩ (by decide)
    (by decide) .nil)))
  exact h

/-- A text is read as one duration only. -/
theorem C76_duration_unique (s : Str) (v v' : Int) (h : LooseDuration s v) (h' : LooseDuration s v') : v = v' := by
  cases h with
  | pos h =>
    generalize hs : 'P' :: _ = s at h'
    cases h' with
    | pos h' => injection hs with _ hs; subst hs; rw [h.unique h']
    | plus h' => exact absurd (List.cons.inj hs).1 (by decide)
    | neg h' => exact absurd (List.cons.inj hs).1 (by decide)
  | plus h =>
    generalize hs : '+' :: _ = s at h'
    cases h' with
    | pos h' => exact absurd (List.cons.inj hs).1 (by decide)
    | plus h' => injection hs with _ hs; injection hs with _ hs; subst hs; rw [h.unique h']
    | neg h' => exact absurd (List.cons.inj hs).1 (by decide)
  | neg h =>
    generalize hs : '-' :: _ = s at h'
    cases h' with
    | pos h' => exact absurd (List.cons.inj hs).1 (by decide)
    | plus h' => exact absurd (List.cons.inj hs).1 (by decide)
    | neg h' => injection hs with _ hs; injection hs with _ hs; subst hs; rw [h.unique h']

/-- The errors for durations: `OverflowError` exactly if the text is such a sequence and the sum is out of range, and
otherwise `IndexError` or `ValueError`. -/
theorem C76_duration_errors (s : Str) (e : PyErr) (h : durationParse s = .error e) :
    (e = .indexError ∨ e = .valueError) ∧ (¬ ∃ v, LooseDuration s v) ∨
      e = .overflowError ∧ ∃ v, LooseDuration s v ∧
        (v * 1000000 < -(999999999 * 86400 * 1000000) ∨ (999999999 + 1) * 86400 * 1000000 ≤ v * 1000000) := by
  have h1 : tdMin = -(999999999 * 86400 * 1000000) := by decide
  have h2 : tdMax + 1 = (999999999 + 1) * 86400 * 1000000 := by decide
  have key : (∃ v, LooseDuration s v) → ∃ v, LooseDuration s v ∧ ¬ (tdMin ≤ v * 1000000 ∧ v * 1000000 ≤ tdMax) := by
    rintro ⟨v, hv⟩
    refine ⟨v, hv, fun hr => ?_⟩
    rw [(durationParse_iff s _).2 ⟨v, hv, rfl, hr⟩] at h
    exact absurd h (by simp)
  have over : (∃ v, LooseDuration s v) → e = .overflowError := by
    rintro ⟨v, hv⟩
    exact durationParse_overflow hv h
  by_cases hx : ∃ v, LooseDuration s v
  · obtain ⟨v, hv, hr⟩ := key hx
    refine .inr ⟨over hx, v, hv, ?_⟩
    rw [← h1, ← h2]
    by_contra hc
    push Not at hc
    exact hr ⟨hc.1, by omega⟩
  · refine .inl ⟨?_, hx⟩
    obtain h | h | ⟨-, v, hv, -⟩ := durationParse_error h
    · exact .inl h
    · exact .inr h
    · exact absurd ⟨v, hv⟩ hx

/-- Texts that are no durations for RFC 5545 and that are read as durations. -/
theorem C76_duration_lenient :
    durationParse "P".toList = .ok 0 ∧ durationParse "PT".toList = .ok 0 ∧
    durationParse "PT1HT2M".toList = .ok 3720000000 ∧ durationParse "P1S2D".toList = .ok 172801000000 ∧
    durationParse "P1W1D".toList = .ok 691200000000 ∧ durationParse "PT1H5S".toList = .ok 3605000000 := by
  decide +kernel

/-- C76 for UTC offsets: a text is read as one exactly if it is an optional sign and four or six digits. -/
theorem C76_offset (s : Str) (us : Int) :
    utcOffsetParse s = .ok us ↔ ∃ v, OffsetText s v ∧ us = v * 1000000 := utcOffsetParse_iff s us

example : OffsetText "-013045".toList (-5445) := .minus (.hms (h := 1) (m := 30) (s := 45) (by decide) (by decide) (by decide))

/-- What is no UTC offset gives a `ValueError`. -/
theorem C76_offset_errors (s : Str) (e : PyErr) (h : utcOffsetParse s = .error e) : e = .valueError := by
  have hb : ∀ s e, utcOffsetBody s = .error e → e = .valueError := by
    intro s e h
    unfold utcOffsetBody at h
    split at h
    · split at h
      · exact absurd h (by simp)
      · injection h with h; exact h.symm
    · split at h
      · exact absurd h (by simp)
      · injection h with h; exact h.symm
    · injection h with h; exact h.symm
  cases s with
  | nil => simp only [utcOffsetParse] at h; injection h with h; exact h.symm
  | cons c s =>
    simp only [utcOffsetParse] at h
    split at h
    · split at h
      · exact absurd h (by simp)
      · rename_i e' he
        injection h with h
        rw [← h]; exact hb _ _ he
    · split at h
      · exact hb _ _ h
      · exact hb _ _ h

/-- Texts that are no UTC offsets for RFC 5545 and that are read as such: without sign, and with 99 hours and 99
minutes. -/
theorem C76_offset_lenient :
    utcOffsetParse "0100".toList = .ok 3600000000 ∧ utcOffsetParse "+9999".toList = .ok 362340000000 ∧
    utcOffsetParse "-0000".toList = .ok 0 := by
  decide +kernel

theorem stripDt_eq (s : Str) : stripDt s = stripped s := by
  unfold stripDt stripped
  apply List.filter_congr
  intro c _
  simp

theorem endsInZ_iff {value : Str} {last : Char} (h : value.getLast? = some last) :
    (last = 'Z' ∨ last = 'z') ↔ EndsInZ value := by
  unfold EndsInZ
  rw [h]
  simp

theorem getLast_of_text {s : Str} {y m d h n x : Nat} (t : DateTimeText (stripped s) y m d h n x) :
    ∃ last, s.getLast? = some last := by
  cases s with
  | nil => exact absurd t.length (by decide)
  | cons c s => exact ⟨_, List.getLast?_cons⟩

/-- No `TZID`, or an empty one. -/
def NoZone (params : Params) : Prop :=
  dictGet? params "TZID".toList = none ∨ dictGet? params "TZID".toList = some [] ∨
    ∃ q, dictGet? params "TZID".toList = some [⟨q, []⟩]

theorem paramTz_of_noZone {params : Params} (h : NoZone params) : paramTz params = .ok none := by
  unfold paramTz
  obtain h | h | ⟨q, h⟩ := h <;> rw [h]
  rfl

/-- C76 for date-times without `TZID`: a text is read as a date-time exactly if, without the slashes, hyphens and `Z`s, it
is a year and a month, possibly with a day, possibly with a time of hours, minutes and seconds, of which the last may be
missing, and the day exists; it is in UTC exactly if it ends in `Z`. -/
theorem C76_datetime (w : World) (value : Str) (params : Params) (ctx : Ctx) (r : DT × Params × Ctx)
    (hp : NoZone params) :
    parseDt w datetimeFormats value params ctx = .ok r ↔
      ∃ y m d h n s, DateTimeText (stripped value) y m d h n s ∧
        r = (⟨clock y m d h n s, false, if EndsInZ value then some (.zone w.utc) else none⟩,
          dictErase params "TZID".toList, ctx) := by
  have htz := paramTz_of_noZone hp
  rw [parseDt_iff]
  simp only [stripDt_eq, strptime_wall_iff]
  constructor
  · rintro ⟨tz, last, wall, h1, hl, -, ⟨y, m, d, h, n, s, ht, rfl⟩, hr⟩
    refine ⟨y, m, d, h, n, s, ht, ?_⟩
    rw [htz] at h1
    injection h1 with h1
    rw [endsInZ_iff hl] at hr
    obtain ⟨hz, -, rfl⟩ | ⟨hz, -, rfl⟩ | ⟨hz, name, z, ctx', h2, -, rfl⟩ := hr
    · rw [if_pos hz]
    · rw [if_neg hz]
    · rw [h2] at h1; exact absurd h1 (by simp)
  · rintro ⟨y, m, d, h, n, s, ht, rfl⟩
    obtain ⟨last, hl⟩ := getLast_of_text ht
    refine ⟨none, last, _, htz, hl, ht.length, ⟨y, m, d, h, n, s, ht, rfl⟩, ?_⟩
    rw [endsInZ_iff hl]
    by_cases hz : EndsInZ value
    · exact .inl ⟨hz, rfl, by rw [if_pos hz]⟩
    · exact .inr (.inl ⟨hz, rfl, by rw [if_neg hz]⟩)

example : DateTimeText (stripped "2024/02/29T13:37".toList) 2024 2 29 13 37 0 → False := by
  intro h
  exact absurd h.length (by decide)

example : DateTimeText (stripped "2024-02-29T1337Z".toList) 2024 2 29 13 37 0 := by
  rw [show stripped "2024-02-29T1337Z".toList = four 2024 ++ two 2 ++ two 29 ++ 'T' :: (two 13 ++ two 37) by decide]
  exact .time ⟨by decide, by decide, by decide, by decide, by decide, by decide⟩ (.digits (by decide))
    (.inl rfl) (.hm (by decide) (by decide))

/-- The wall clock that is meant, for the day 2024-02-29. -/
example : clock 2024 2 29 13 37 0 = 738944 * 86400000000 + (13 * 3600 + 37 * 60) * 1000000 := by decide +kernel

/-- How a zone is found for a name: among those of the context, otherwise by `Timezone.from_tzid` or else `gettz`, and
then it is added to the context. -/
inductive ZoneFor (w : World) (name : Str) : Ctx → Nat → Ctx → Prop
  | known {d : List (Str × Nat)} {z : Nat} : dictGet? d name = some z → ZoneFor w name (some d) z (some d)
  | named {d : List (Str × Nat)} {z : Nat} : dictGet? d name = none → w.fromTzid name = some z →
      ZoneFor w name (some d) z (some (dictSet d name z))
  | dateutil {d : List (Str × Nat)} {z : Nat} : dictGet? d name = none → w.fromTzid name = none → w.gettz name = some z →
      ZoneFor w name (some d) z (some (dictSet d name z))

theorem selectTz_iff (w : World) (ctx ctx' : Ctx) (name : Str) (z : Nat) :
    selectTz w ctx name = .ok (z, ctx') ↔ ZoneFor w name ctx z ctx' := by
  unfold selectTz
  constructor
  · intro h
    cases ctx with
    | none =>
      simp only [Option.bind_none] at h
      split at h <;> exact absurd h (by simp)
    | some d =>
      simp only [Option.bind_some] at h
      split at h
      · rename_i z' hz
        injection h with h
        injection h with h1 h2
        subst h1 h2
        exact .known hz
      · rename_i hz
        cases hf : w.fromTzid name with
        | some z' =>
          simp only [hf, Option.orElse] at h
          injection h with h
          injection h with h1 h2
          subst h1 h2
          rw [dictSetDefault, hz]
          exact .named hz hf
        | none =>
          simp only [hf, Option.orElse] at h
          cases hg : w.gettz name with
          | none => rw [hg] at h; exact absurd h (by simp)
          | some z' =>
            rw [hg] at h
            injection h with h
            injection h with h1 h2
            subst h1 h2
            rw [dictSetDefault, hz]
            exact .dateutil hz hf hg
  · intro h
    cases h with
    | known hz => simp only [Option.bind_some, hz]
    | named hz hf => simp only [Option.bind_some, hz, hf, Option.orElse, dictSetDefault]
    | dateutil hz hf hg => simp only [Option.bind_some, hz, hf, hg, Option.orElse, dictSetDefault]

/-- C76 for date-times with a `TZID`: the text must not end in `Z` and the zone must be found. -/
theorem C76_zoned (w : World) (value : Str) (params : Params) (ctx : Ctx) (v : PVal) (r : DT × Params × Ctx)
    (hp : dictGet? params "TZID".toList = some [v]) (hv : v.text ≠ []) :
    parseDt w datetimeFormats value params ctx = .ok r ↔
      ∃ y m d h n s z ctx', DateTimeText (stripped value) y m d h n s ∧ ¬ EndsInZ value ∧ ZoneFor w v.text ctx z ctx' ∧
        r = (⟨clock y m d h n s, false, some (.zone z)⟩, dictErase params "TZID".toList, ctx') := by
  have htz : paramTz params = .ok (some v.text) := by unfold paramTz; rw [hp]; simp [hv]
  rw [parseDt_iff]
  simp only [stripDt_eq, strptime_wall_iff, selectTz_iff]
  constructor
  · rintro ⟨tz, last, wall, h1, hl, -, ⟨y, m, d, h, n, s, ht, rfl⟩, hr⟩
    rw [htz] at h1
    injection h1 with h1
    rw [endsInZ_iff hl] at hr
    obtain ⟨hz, h2, rfl⟩ | ⟨hz, h2, rfl⟩ | ⟨hz, name, z, ctx', h2, hs, rfl⟩ := hr
    · rw [h2] at h1; exact absurd h1 (by simp)
    · rw [h2] at h1; exact absurd h1 (by simp)
    · rw [h2] at h1
      injection h1 with h1
      subst h1
      exact ⟨y, m, d, h, n, s, z, ctx', ht, hz, hs, rfl⟩
  · rintro ⟨y, m, d, h, n, s, z, ctx', ht, hz, hs, rfl⟩
    obtain ⟨last, hl⟩ := getLast_of_text ht
    refine ⟨some v.text, last, _, htz, hl, ht.length, ⟨y, m, d, h, n, s, ht, rfl⟩, ?_⟩
    rw [endsInZ_iff hl]
    exact .inr (.inr ⟨hz, _, z, ctx', rfl, hs, rfl⟩)

/-- More than one `TZID`: `ValueError`, whatever the text. -/
theorem C76_zones (w : World) (formats : List Nat) (value : Str) (params : Params) (ctx : Ctx) (v v' : PVal)
    (vs : List PVal) (hp : dictGet? params "TZID".toList = some (v :: v' :: vs)) :
    parseDt w formats value params ctx = .error .valueError := by
  unfold parseDt paramTz
  rw [hp]

example : dictGet? [("TZID".toList, [⟨false, "X/Y".toList⟩, (⟨false, "A".toList⟩ : PVal)])] "TZID".toList =
    some [⟨false, "X/Y".toList⟩, ⟨false, "A".toList⟩] := by decide

/-- C76 for dates: a year and a month, possibly with a day, with slashes, hyphens and `Z`s anywhere. -/
theorem C76_date (w : World) (value : Str) (params : Params) (ctx : Ctx) (r : Int × Params × Ctx)
    (hp : NoZone params) :
    parseDate w value params ctx = .ok r ↔
      ∃ y m d, DayExists y m d ∧
        (stripped value = four y ++ two m ∧ d = 1 ∨ ∃ ds, DayText ds d ∧ stripped value = four y ++ two m ++ ds) ∧
        r = (clock y m d 0 0 0, dictErase params "TZID".toList, ctx) := by
  have htz := paramTz_of_noZone hp
  have hday : ∀ {y m d : Nat}, clock y m d 0 0 0 - clock y m d 0 0 0 % dayUs = clock y m d 0 0 0 := by
    intro y m d
    unfold clock
    simp only [dayUs]
    push_cast
    omega
  have hdt : ∀ {ds : Str} {d : Nat}, DayText ds d → ds.length = 2 := by
    intro ds d h
    obtain ⟨a, b, rfl⟩ := h.cons
    rfl
  unfold parseDate
  constructor
  · intro h
    split at h
    · rename_i dt params' ctx' hok
      obtain ⟨tz, last, wall, h1, hl, hf, hst, hr⟩ := (parseDt_iff _ _ _ _ _ _).1 hok
      obtain ⟨y, m, d, hh, n, s, ht, rfl⟩ := (strptime_wall_iff _ _).1 hst
      rw [stripDt_eq] at ht hf
      rw [htz] at h1
      injection h1 with h1
      have hr' : dt.wall = clock y m d hh n s ∧ params' = dictErase params "TZID".toList ∧ ctx' = ctx := by
        obtain ⟨-, -, hr⟩ | ⟨-, -, hr⟩ | ⟨-, name, z, ctx', h2, -, -⟩ := hr
        · injection hr with e1 e2; injection e2 with e2 e3; exact ⟨by rw [e1], e2, e3⟩
        · injection hr with e1 e2; injection e2 with e2 e3; exact ⟨by rw [e1], e2, e3⟩
        · rw [h2] at h1; exact absurd h1 (by simp)
      obtain ⟨e1, rfl, rfl⟩ := hr'
      injection h with h
      subst h
      rw [e1]
      have hb := ht.bounds
      generalize hs : stripped value = sv at ht hf
      cases ht with
      | month hd => exact ⟨y, m, 1, hd, .inl ⟨rfl, rfl⟩, by rw [hday]⟩
      | day hd hds => exact ⟨y, m, d, hd, .inr ⟨_, hds, rfl⟩, by rw [hday]⟩
      | time hd hds hc htt =>
        exfalso
        cases htt <;> simp [baseFormats, four, two, hdt hds] at hf
    · exact absurd h (by simp)
  · rintro ⟨y, m, d, hd, hs, rfl⟩
    have ht : DateTimeText (stripped value) y m d 0 0 0 ∧ (stripped value).length ∈ baseFormats := by
      obtain ⟨hs, rfl⟩ | ⟨ds, hds, hs⟩ := hs
      · rw [hs]; exact ⟨.month hd, by simp [baseFormats, four, two]⟩
      · rw [hs]; exact ⟨.day hd hds, by simp [baseFormats, four, two, hdt hds]⟩
    obtain ⟨last, hl⟩ := getLast_of_text ht.1
    by_cases hz : last = 'Z' ∨ last = 'z'
    · rw [(parseDt_iff w baseFormats value params ctx
        (⟨clock y m d 0 0 0, false, some (.zone w.utc)⟩, dictErase params "TZID".toList, ctx)).2
        ⟨none, last, clock y m d 0 0 0, htz, hl, by rw [stripDt_eq]; exact ht.2,
          (strptime_wall_iff _ _).2 ⟨y, m, d, 0, 0, 0, by rw [stripDt_eq]; exact ht.1, rfl⟩, .inl ⟨hz, rfl, rfl⟩⟩]
      simp only [hday]
    · rw [(parseDt_iff w baseFormats value params ctx
        (⟨clock y m d 0 0 0, false, none⟩, dictErase params "TZID".toList, ctx)).2
        ⟨none, last, clock y m d 0 0 0, htz, hl, by rw [stripDt_eq]; exact ht.2,
          (strptime_wall_iff _ _).2 ⟨y, m, d, 0, 0, 0, by rw [stripDt_eq]; exact ht.1, rfl⟩, .inr (.inl ⟨hz, rfl, rfl⟩)⟩]
      simp only [hday]

/-- Texts that are no date-times or dates for RFC 5545 and that are read as such: with hyphens, with a lower case `t`, with
a space before the day, without the day or parts of the time, and with a `Z` in the middle. -/
theorem C76_datetime_lenient :
    parseDt exWorld datetimeFormats "2024-02-29t13".toList [] none =
      .ok (⟨clock 2024 2 29 13 0 0, false, none⟩, [], none) ∧
    parseDt exWorld datetimeFormats "202402 9ZT1337".toList [] none =
      .ok (⟨clock 2024 2 9 13 37 0, false, none⟩, [], none) ∧
    parseDt exWorld datetimeFormats "2024/02".toList [] none = .ok (⟨clock 2024 2 1 0 0 0, false, none⟩, [], none) ∧
    parseDate exWorld "202402Z".toList [] none = .ok (clock 2024 2 1 0 0 0, [], none) := by
  have hd : DayExists 2024 2 29 ∧ DayExists 2024 2 9 ∧ DayExists 2024 2 1 := by unfold DayExists; decide
  have hz : NoZone [] := .inl rfl
  refine ⟨?_, ?_, ?_, ?_⟩
  · refine (C76_datetime _ _ _ _ _ hz).2 ⟨2024, 2, 29, 13, 0, 0, ?_, ?_⟩
    · rw [show stripped "2024-02-29t13".toList = four 2024 ++ two 2 ++ two 29 ++ 't' :: two 13 by decide]
      exact .time hd.1 (.digits (by decide)) (.inr rfl) (.h (by decide))
    · rw [if_neg (by decide)]; rfl
  · refine (C76_datetime _ _ _ _ _ hz).2 ⟨2024, 2, 9, 13, 37, 0, ?_, ?_⟩
    · rw [show stripped "202402 9ZT1337".toList = four 2024 ++ two 2 ++ [' ', digit 9] ++ 'T' :: (two 13 ++ two 37) by decide]
      exact .time hd.2.1 (.space (by decide)) (.inl rfl) (.hm (by decide) (by decide))
    · rw [if_neg (by decide)]; rfl
  · refine (C76_datetime _ _ _ _ _ hz).2 ⟨2024, 2, 1, 0, 0, 0, ?_, ?_⟩
    · rw [show stripped "2024/02".toList = four 2024 ++ two 2 by decide]
      exact .month hd.2.2
    · rw [if_neg (by decide)]; rfl
  · refine (C76_date _ _ _ _ _ hz).2 ⟨2024, 2, 1, hd.2.2, .inl ⟨by decide, rfl⟩, rfl⟩

end Ics
