import Verif.Props.Timespan

/-
C72: setting begin, end and duration, in particular those of all-day entries.
-/
namespace Ics

theorem edit_mkSpan (e : Env) (x : Entry) (s : Span) (hs : s.cls = x.timespan.cls)
    (hc' : isInstance x.timespan x.tsType = true) :
    e.assign (e.mkSpan s) x = match e.validate s with
      | .ok () => (.ok (), { x with timespan := s })
      | .error err => (.error err, x) := by
  have hc : isInstance s x.tsType = true := by
    unfold isInstance at hc' ⊢
    rw [hs]
    exact hc'
  unfold Env.assign Env.mkSpan
  cases h : e.validate s with
  | error err => rfl
  | ok u =>
    change e.setTimespan s x = _
    unfold Env.setTimespan Env.validateTimespan
    rw [if_pos hc, h]

/-- C72: setting begin, end or duration succeeds exactly if the time span would be well-formed afterwards; what was set is
stored, and setting the end removes the duration and the other way round. -/
theorem C72_succeeds (e : Env) (x : Entry) (hc : isInstance x.timespan x.tsType = true) (hr : x.timespan.InRange)
    (t : DT) (ht : t.InRange) (d : Int) :
    ((e.edit x (.begin (some t))).1 = .ok () ↔ WellFormed e { x.timespan with begin? := some t }) ∧
    ((e.edit x (.end_ (some t))).1 = .ok () ↔ WellFormed e { x.timespan with end? := some t, dur? := none }) ∧
    ((e.edit x (.duration (some d))).1 = .ok () ↔ WellFormed e { x.timespan with dur? := some d, end? := none }) := by
  have key : ∀ s : Span, s.cls = x.timespan.cls → s.InRange →
      ((e.assign (e.mkSpan s) x).1 = .ok () ↔ WellFormed e s) := by
    intro s hs hr
    rw [edit_mkSpan e x s hs hc, ← validate_ok e s hr]
    cases e.validate s with
    | error err => constructor <;> (intro h; cases h)
    | ok u => constructor <;> (intro h; rfl)
  refine ⟨key _ rfl ⟨?_, hr.2⟩, key _ rfl ⟨hr.1, ?_⟩, key _ rfl ⟨hr.1, ?_⟩⟩
  · intro y hy
    cases hy
    exact ht
  · intro y hy
    cases hy
    exact ht
  · intro y hy
    cases hy

theorem precision_error {e : Env} {s : Span} {d : DT} (hp : s.prec = .day) (h : d.wall % dayUs ≠ 0 ∨ d.tz ≠ none) :
    e.validatePrecision s d = .error .valueError := by
  unfold Env.validatePrecision
  rw [if_pos hp, e.eq_floorDay]
  by_cases hw : d.wall % dayUs = 0
  · have ht : d.tz.isSome = true := by
      rcases h with h | h
      · exact absurd hw h
      · exact Option.isSome_iff_ne_none.2 h
    simp [hw, ht]
  · simp [hw]

theorem precision_cases (e : Env) (s : Span) (d : DT) :
    e.validatePrecision s d = .ok () ∨ e.validatePrecision s d = .error .valueError := by
  unfold Env.validatePrecision
  split
  · split
    · exact .inr rfl
    · split
      · exact .inr rfl
      · exact .inl rfl
  · exact .inl rfl

theorem validate_error {e : Env} {s : Span} {err : PyErr} (h : e.validateBase s = .error err) : e.validate s = .error err := by
  unfold Env.validate
  rw [h]
  rfl

/-- C72 is false: the time of an all-day entry is not truncated to midnight when the begin is set, as its documentation
says, and the end is not rounded up.  Both are refused, and nothing changes. -/
theorem C72_begin_fails (e : Env) (x : Entry) (hc : isInstance x.timespan x.tsType = true) (hp : x.timespan.prec = .day)
    (t : DT) (ht : t.wall % dayUs ≠ 0 ∨ t.tz ≠ none) :
    e.edit x (.begin (some t)) = (.error .valueError, x) ∧ e.edit x (.end_ (some t)) = (.error .valueError, x) := by
  constructor
  · change e.assign (e.mkSpan { x.timespan with begin? := some t }) x = _
    generalize hs : ({ x.timespan with begin? := some t } : Span) = s
    have hp' : s.prec = .day := by rw [← hs]; exact hp
    have hb : s.begin? = some t := by rw [← hs]
    have hcl : s.cls = x.timespan.cls := by rw [← hs]
    rw [edit_mkSpan e x s hcl hc, validate_error (err := .valueError)]
    unfold Env.validateBase
    rw [hb]
    dsimp only
    rw [precision_error hp' ht]
    rfl
  · change e.assign (e.mkSpan { x.timespan with end? := some t, dur? := none }) x = _
    generalize hs : ({ x.timespan with end? := some t, dur? := none } : Span) = s
    have hcl : s.cls = x.timespan.cls := by rw [← hs]
    rw [edit_mkSpan e x s hcl hc, validate_error (err := .valueError)]
    have hp' : s.prec = .day := by rw [← hs]; exact hp
    have he : s.end? = some t := by rw [← hs]
    unfold Env.validateBase
    rw [he]
    cases s.begin? with
    | none =>
      dsimp only [ifGiven]
      rw [precision_error hp' ht]
      rfl
    | some b =>
      dsimp only [ifGiven]
      rcases precision_cases e s b with h | h <;> rw [h]
      · unfold Env.validateEnd
        rw [precision_error hp' ht]
        rfl
      · rfl

/-- C72 is false: the duration of an all-day entry is not rounded up to full days when it is set, as its documentation says.
More than half a second over a number of full days is refused. -/
theorem C72_duration_fails (e : Env) (x : Entry) (hc : isInstance x.timespan x.tsType = true) (hp : x.timespan.prec = .day)
    (d : Int) (hd : 500000 < d % dayUs) : e.edit x (.duration (some d)) = (.error .valueError, x) := by
  change e.assign (e.mkSpan { x.timespan with dur? := some d, end? := none }) x = _
  generalize hs : ({ x.timespan with dur? := some d, end? := none } : Span) = s
  have hcl : s.cls = x.timespan.cls := by rw [← hs]
  rw [edit_mkSpan e x s hcl hc, validate_error (err := .valueError)]
  have hp' : s.prec = .day := by rw [← hs]; exact hp
  have he : s.end? = none := by rw [← hs]
  have hd' : s.dur? = some d := by rw [← hs]
  unfold Env.validateBase
  rw [he, hd']
  cases s.begin? with
  | none => rfl
  | some b =>
    dsimp only [ifGiven]
    rcases precision_cases e s b with h | h <;> rw [h]
    · change validateDur _ d = _
      unfold validateDur
      by_cases h1 : d < 0
      · simp only [h1, decide_true]; rfl
      · by_cases h2 : d < dayUs
        · simp only [h1, h2, hp', decide_false, and_self, decide_true]; rfl
        · have h3 : nearlyZero (d % dayUs) = false := by
            unfold nearlyZero
            exact decide_eq_false (by omega)
          simp only [h1, h2, hp', and_false, decide_false, timedeltaCache]
          change raiseIf (!nearlyZero (d % dayUs)) = _
          rw [h3]
          rfl
    · rfl

/-- C72: up to half a second over a number of full days is accepted and stored as it is: the entry then does not end at
midnight. -/
theorem C72_half_second_fails (e : Env) (x : Entry) (hc : isInstance x.timespan x.tsType = true) (hp : x.timespan.prec = .day)
    (b : DT) (hb : x.timespan.begin? = some b) (hw : b.wall % dayUs = 0) (ht : b.tz = none) (n r : Int) (hn : 1 ≤ n)
    (hr : 0 < r ∧ r ≤ 500000) (hm : 0 ≤ b.wall ∧ b.wall + n * dayUs + r < maxWall) :
    ∃ y en, e.edit x (.duration (some (n * dayUs + r))) = (.ok (), y) ∧ y.timespan.dur? = some (n * dayUs + r) ∧
      y.timespan.prec = .day ∧ e.effEnd y.timespan = .ok (some en) ∧ en.wall % dayUs ≠ 0 := by
  have hdu : dayUs = 86400000000 := rfl
  have hge : dayUs ≤ n * dayUs := by rw [hdu]; omega
  have hmod : (n * dayUs + r) % dayUs = r := by rw [hdu]; omega
  have hend : (b.wall + (n * dayUs + r)) % dayUs ≠ 0 := by rw [hdu] at hw ⊢; omega
  generalize hs : ({ x.timespan with dur? := some (n * dayUs + r), end? := none } : Span) = s
  have hp' : s.prec = .day := by rw [← hs]; exact hp
  have he : s.end? = none := by rw [← hs]
  have hd' : s.dur? = some (n * dayUs + r) := by rw [← hs]
  have hb' : s.begin? = some b := by rw [← hs]; exact hb
  have hcl : s.cls = x.timespan.cls := by rw [← hs]
  have hval : e.validate s = .ok () := by
    have hpr : e.validatePrecision s b = .ok () := by
      unfold Env.validatePrecision
      rw [if_pos hp', e.eq_floorDay]
      simp [hw, ht]
    have hdur : validateDur s (n * dayUs + r) = .ok () := by
      have h3 : nearlyZero ((n * dayUs + r) % dayUs) = true := by
        unfold nearlyZero
        exact decide_eq_true (by omega)
      have h1 : ¬ n * dayUs + r < 0 := by omega
      have h2 : ¬ n * dayUs + r < dayUs := by omega
      unfold validateDur
      simp only [h1, h2, hp', and_false, decide_false, timedeltaCache]
      change raiseIf (!nearlyZero ((n * dayUs + r) % dayUs)) = _
      rw [h3]
      rfl
    unfold Env.validate Env.validateBase
    simp only [hb', he, hd', ifGiven, hpr]
    simp only [bind, Except.bind, hdur, raiseIf]
    simp
  refine ⟨{ x with timespan := s }, ⟨b.wall + (n * dayUs + r), false, b.tz⟩, ?_, hd', hp', ?_, ?_⟩
  · change e.assign (e.mkSpan { x.timespan with dur? := some (n * dayUs + r), end? := none }) x = _
    rw [hs, edit_mkSpan e x s hcl hc, hval]
  · unfold Env.effEnd Env.effDur DT.add mkWall
    simp only [hb', he, hd']
    rw [if_pos (by omega)]
  · exact hend

/-! ### Examples -/

/-- An all-day event: one day from 2026-11-16. -/
def exAllDay : Entry := ⟨.event, ⟨.event, some ⟨dayNo 739936, false, none⟩, none, some dayUs, .day⟩, none⟩

example : isInstance exAllDay.timespan exAllDay.tsType = true ∧ exAllDay.timespan.prec = .day ∧
    dstEnv.edit exAllDay (.begin (some ⟨dayNo 739937, false, none⟩)) =
      (.ok (), ⟨.event, ⟨.event, some ⟨dayNo 739937, false, none⟩, none, some dayUs, .day⟩, none⟩) ∧
    dstEnv.edit exAllDay (.begin (some ⟨dayNo 739937 + 1, false, none⟩)) = (.error .valueError, exAllDay) ∧
    (dstEnv.edit exAllDay (.duration (some (2 * dayUs + 500000)))).1 = .ok () ∧
    dstEnv.edit exAllDay (.duration (some (2 * dayUs + 500001))) = (.error .valueError, exAllDay) := by
  decide +kernel

example : exAllDay.timespan.InRange := by
  constructor
  · intro b hb
    cases hb
    unfold DT.InRange
    decide
  · intro b hb
    cases hb

end Ics
