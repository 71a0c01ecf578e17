import Verif.Props.Queries
import Mathlib.Data.List.Forall2

/-
C50: normalization of times, spans, events and calendars.
-/
namespace Ics

theorem astimezone_tz {e : Env} {d x : DT} {z : Tz} (h : e.astimezone d z = .ok x) : x.tz = some z := by
  rw [astimezone_eq] at h
  split at h
  · rename_i hz; injection h with h; rw [← h]; exact hz
  · split at h
    · cases h
    · split at h
      · injection h with h; rw [← h]
      · cases h

theorem astimezone_self {e : Env} {d : DT} {z : Tz} (h : d.tz = some z) : e.astimezone d z = .ok d := by
  rw [astimezone_eq, if_pos h]

/-- C50, single times: with a zone as replacement and a setting that treats floating times, the result
is aware. -/
theorem C50_time_aware (e : Env) (n : Normalization) (z : Tz) (hz : n.replacement = some z)
    (hn : n.floating ≠ .ignore) (d x : DT) (h : e.normalizeDT n d = .ok x) : x.tz ≠ none := by
  unfold Env.normalizeDT at h
  split at h
  · rename_i ha
    injection h with h; subst h
    intro hx
    rw [hx] at ha
    exact hn ha
  · injection h with h; subst h; simp [DT.replaceTz, hz]
  · rw [hz] at h
    rw [astimezone_tz h]; simp

/-- C50, single times: normalizing twice is normalizing once. -/
theorem C50_time_idempotent (e : Env) (n : Normalization) (z : Tz) (hz : n.replacement = some z)
    (d x : DT) (h : e.normalizeDT n d = .ok x) : e.normalizeDT n x = .ok x := by
  have hself : x.tz = some z → e.normalizeDT n x = .ok x := by
    intro hx
    unfold Env.normalizeDT
    split
    · rfl
    · rw [hz]
      rcases x with ⟨w, f, t⟩
      dsimp only at hx
      subst hx
      rfl
    · rw [hz]; exact astimezone_self hx
  unfold Env.normalizeDT at h
  split at h
  · rename_i ha
    injection h with h; subst h
    unfold Env.normalizeDT
    rw [ha]
  · injection h with h; subst h; exact hself (by simp [DT.replaceTz, hz])
  · rw [hz] at h; exact hself (astimezone_tz h)

/-- C50, single times: unless a zone is replaced, the instant stays. -/
theorem C50_time_instant (e : Env) (n : Normalization) (z : Tz) (hz : n.replacement = some z)
    (hl : e.Lawful z) (d x : DT) (hn : n.action d.tz.isNone ≠ .replace)
    (h : e.normalizeDT n d = .ok x) : e.instant x = e.instant d := by
  unfold Env.normalizeDT at h
  split at h
  · injection h with h; rw [h]
  · rename_i ha; exact absurd ha hn
  · rw [hz] at h; exact (astimezone_instant hl h).2

example : dstEnv.normalizeDT ⟨some (.zone 1), .replace, .convert⟩ ⟨dayNo 737511, false, none⟩ =
    .ok ⟨dayNo 737511, false, some (.zone 1)⟩ ∧
    dstEnv.normalizeDT ⟨some (.zone 1), .replace, .convert⟩ ⟨dayNo 737511, false, some (.zone 0)⟩ =
    .ok ⟨dayNo 737511 + hours 1, false, some (.zone 1)⟩ := by decide +kernel

/-- C50 is false with `None` as replacement: zones are stripped by the first normalization, and the
second one converts the naive result to local time. -/
theorem C50_none_fails : ∃ (n : Normalization) (d x y : DT), n.replacement = none ∧
    dstEnv.normalizeDT n d = .ok x ∧ dstEnv.normalizeDT n x = .ok y ∧ x ≠ y :=
  ⟨⟨none, .convert, .replace⟩, ⟨dayNo 737511, false, some (.zone 0)⟩, ⟨dayNo 737511, false, none⟩,
    ⟨dayNo 737511, false, some (.fixed 0)⟩, by decide +kernel⟩

/-! ### Spans -/

theorem normalizeSpan_ok {e : Env} {n : Normalization} {z : Tz} (hz : n.replacement = some z)
    {s t : Span} (h : e.normalizeSpan n s = .ok t) :
    (n.action s.isFloating = .ignore ∧ t = s) ∨
    (n.action s.isFloating ≠ .ignore ∧ s.isAllDay = false ∧ e.validate t = .ok () ∧
      t.isAllDay = false ∧ (∀ d, t.begin? = some d ∨ t.end? = some d → d.tz = some z) ∧
      (t.begin? = none ↔ s.begin? = none) ∧ (t.end? = none ↔ s.end? = none)) := by
  unfold Env.normalizeSpan at h
  split at h
  · rename_i ha; injection h with h; exact Or.inl ⟨ha, h.symm⟩
  · rename_i ha
    right
    unfold Env.replaceTimezone at h
    split at h
    · cases h
    · rename_i hd
      obtain ⟨hv, rfl⟩ := mkSpan_ok.1 h
      refine ⟨by rw [ha]; simp, by simpa using hd, hv, by simpa [Span.isAllDay] using hd, ?_, by simp, by simp⟩
      rintro d (hd | hd) <;>
      · obtain ⟨x, -, rfl⟩ := Option.map_eq_some_iff.1 hd
        exact hz
  · rename_i ha
    right
    obtain ⟨hd, b, en, hb, he, hm⟩ := convertTimezone_ok h
    obtain ⟨hv, rfl⟩ := mkSpan_ok.1 hm
    rw [hz] at hb he
    have hd' : s.isAllDay = false := by
      unfold Env.convertTimezone at h
      split at h
      · cases h
      · rename_i hd; simpa using hd
    refine ⟨by rw [ha]; simp, hd', hv, hd', ?_, ?_, ?_⟩
    · rintro d (hd | hd)
      · rcases convertOpt_ok hb with ⟨-, h2⟩ | ⟨a, y, -, h2, h3⟩
        · dsimp only at hd; rw [h2] at hd; cases hd
        · dsimp only at hd; rw [h2] at hd; injection hd with hd; subst hd; exact astimezone_tz h3
      · rcases convertOpt_ok he with ⟨-, h2⟩ | ⟨a, y, -, h2, h3⟩
        · dsimp only at hd; rw [h2] at hd; cases hd
        · dsimp only at hd; rw [h2] at hd; injection hd with hd; subst hd; exact astimezone_tz h3
    · rcases convertOpt_ok hb with ⟨h1, h2⟩ | ⟨a, y, h1, h2, -⟩ <;> simp [h1, h2]
    · rcases convertOpt_ok he with ⟨h1, h2⟩ | ⟨a, y, h1, h2, -⟩ <;> simp [h1, h2]

/-- C50, spans: with a zone as replacement and a setting that treats floating times, all times of the
result are aware. -/
theorem C50_span_aware (e : Env) (n : Normalization) (z : Tz) (hz : n.replacement = some z)
    (hn : n.floating ≠ .ignore) (s t : Span) (hw : WellFormed e s) (h : e.normalizeSpan n s = .ok t) :
    ∀ d, t.begin? = some d ∨ t.end? = some d → d.tz ≠ none := by
  intro d hd
  rcases normalizeSpan_ok hz h with ⟨ha, rfl⟩ | ⟨-, -, -, -, h1, -⟩
  · have hf : t.isFloating = false := by
      cases hf : t.isFloating with
      | false => rfl
      | true => rw [hf] at ha; exact absurd ha hn
    unfold Span.isFloating at hf
    cases hb : t.begin? with
    | none =>
      rw [hb] at hd hf
      cases he : t.end? with
      | none => rw [he] at hd; simp at hd
      | some en =>
        rw [he] at hf hd
        rcases hd with hd | hd
        · cases hd
        · injection hd with hd; subst hd; intro hx; simp [hx] at hf
    | some b =>
      rw [hb] at hf
      have hb' : b.tz ≠ none := by intro hx; simp [hx] at hf
      rcases hd with hd | hd
      · rw [hb] at hd; injection hd with hd; rw [← hd]; exact hb'
      · intro hx; exact hb' ((hw.kinds b d hb hd).2 hx)
  · rw [h1 d hd]; simp

/-- C50, spans: normalizing twice is normalizing once. -/
theorem C50_span_idempotent (e : Env) (n : Normalization) (z : Tz) (hz : n.replacement = some z)
    (s t : Span) (h : e.normalizeSpan n s = .ok t) : e.normalizeSpan n t = .ok t := by
  rcases normalizeSpan_ok hz h with ⟨ha, rfl⟩ | ⟨-, -, hv, hd, h1, -⟩
  · exact h
  · have hb : ∀ f : DT → DT, (∀ d, d.tz = some z → f d = d) → t.begin?.map f = t.begin? := by
      intro f hf
      cases hx : t.begin? with
      | none => rfl
      | some d => simp [hf d (h1 d (Or.inl hx))]
    have he : ∀ f : DT → DT, (∀ d, d.tz = some z → f d = d) → t.end?.map f = t.end? := by
      intro f hf
      cases hx : t.end? with
      | none => rfl
      | some d => simp [hf d (h1 d (Or.inr hx))]
    have hr : ∀ d : DT, d.tz = some z → d.replaceTz (some z) = d := by
      rintro ⟨w, f, t⟩ ht
      dsimp only at ht
      subst ht
      rfl
    have hm : e.mkSpan t = .ok t := mkSpan_ok.2 ⟨hv, rfl⟩
    unfold Env.normalizeSpan
    split
    · rfl
    · unfold Env.replaceTimezone
      rw [if_neg (by rw [hd]; simp), hz, hb _ hr, he _ hr]
      exact hm
    · unfold Env.convertTimezone
      rw [if_neg (by rw [hd]; simp), hz]
      have hc : ∀ o : Option DT, (∀ d, o = some d → d.tz = some z) →
          e.convertOpt o (some z) = .ok o := by
        intro o ho
        cases o with
        | none => rfl
        | some d =>
          unfold Env.convertOpt Env.astimezone?
          dsimp only
          rw [astimezone_self (ho d rfl)]
      rw [hc _ (fun d hd => h1 d (Or.inl hd)), hc _ (fun d hd => h1 d (Or.inr hd))]
      exact hm

/-- C50, spans: with conversion the instants of begin and of a given end stay.  Missing: an end given
as duration, see `C25_duration_fails`. -/
theorem C50_span_instant_partial (e : Env) (n : Normalization) (z : Tz) (hz : n.replacement = some z)
    (hl : e.Lawful z) (s t : Span) (hn : n.action s.isFloating ≠ .replace)
    (h : e.normalizeSpan n s = .ok t) :
    (∀ b, s.begin? = some b → ∃ b', t.begin? = some b' ∧ e.instant b' = e.instant b) ∧
    (∀ en, s.end? = some en → ∃ en', t.end? = some en' ∧ e.instant en' = e.instant en) := by
  unfold Env.normalizeSpan at h
  split at h
  · injection h with h; subst h; exact ⟨fun b hb => ⟨b, hb, rfl⟩, fun b hb => ⟨b, hb, rfl⟩⟩
  · rename_i ha; exact absurd ha hn
  · rw [hz] at h
    obtain ⟨-, -, -, -, -, h1, h2⟩ := C25_convert_partial e z hl s t h
    refine ⟨fun b hb => ?_, fun b hb => ?_⟩
    · obtain ⟨x, h3, -, h4⟩ := h1 b hb; exact ⟨x, h3, h4⟩
    · obtain ⟨x, h3, -, h4⟩ := h2 b hb; exact ⟨x, h3, h4⟩

/-- C50: a span is floating exactly if none of its times has a zone; this decides which setting is used. -/
theorem C50_floating (e : Env) (s : Span) (hw : WellFormed e s) :
    s.isFloating = true ↔ ∀ d, s.begin? = some d ∨ s.end? = some d → d.tz = none := by
  unfold Span.isFloating
  cases hb : s.begin? with
  | none =>
    cases he : s.end? with
    | none => simp
    | some en => simp
  | some b =>
    simp only [Option.isNone_iff_eq_none]
    constructor
    · rintro h d (hd | hd)
      · cases hd
        exact h
      · exact (hw.kinds b d hb hd).1 h
    · intro h
      exact h b (.inl rfl)

/-- C50: a setting that ignores floating times leaves every span alone all of whose times have no zone; a setting that ignores
times with a zone leaves every span alone that has a time with a zone. -/
theorem C50_span_kept (e : Env) (n : Normalization) (s : Span) (hw : WellFormed e s) :
    (n.floating = .ignore → (∀ d, s.begin? = some d ∨ s.end? = some d → d.tz = none) → e.normalizeSpan n s = .ok s) ∧
    (n.withTz = .ignore → (∃ d, (s.begin? = some d ∨ s.end? = some d) ∧ d.tz ≠ none) → e.normalizeSpan n s = .ok s) := by
  refine ⟨fun hn h => ?_, fun hn ⟨d, hd, h⟩ => ?_⟩
  · unfold Env.normalizeSpan
    rw [(C50_floating e s hw).2 h, Normalization.action, if_pos rfl, hn]
  · have : s.isFloating = false := by
      rw [Bool.eq_false_iff]
      intro hf
      exact h ((C50_floating e s hw).1 hf d hd)
    unfold Env.normalizeSpan
    rw [this, Normalization.action, if_neg (by decide), hn]

/-- C50: a setting that replaces keeps the wall clocks: for floating spans, and for spans with a zone. -/
theorem C50_span_replaced (e : Env) (n : Normalization) (s t : Span) (hw : WellFormed e s)
    (h : (n.floating = .replace ∧ ∀ d, s.begin? = some d ∨ s.end? = some d → d.tz = none) ∨
      (n.withTz = .replace ∧ ∃ d, (s.begin? = some d ∨ s.end? = some d) ∧ d.tz ≠ none))
    (ht : e.normalizeSpan n s = .ok t) :
    t.begin? = s.begin?.map (fun d => { d with tz := n.replacement }) ∧
      t.end? = s.end?.map (fun d => { d with tz := n.replacement }) ∧ t.dur? = s.dur? ∧ t.prec = s.prec := by
  have ha : n.action s.isFloating = .replace := by
    rcases h with ⟨h1, h2⟩ | ⟨h1, d, hd, h2⟩
    · rw [(C50_floating e s hw).2 h2, Normalization.action, if_pos rfl, h1]
    · have : s.isFloating = false := by
        rw [Bool.eq_false_iff]
        intro hf
        exact h2 ((C50_floating e s hw).1 hf d hd)
      rw [this, Normalization.action, if_neg (by decide), h1]
  unfold Env.normalizeSpan at ht
  rw [ha] at ht
  dsimp only at ht
  unfold Env.replaceTimezone at ht
  split at ht
  · cases ht
  · obtain ⟨-, rfl⟩ := mkSpan_ok.1 ht
    exact ⟨rfl, rfl, rfl, rfl⟩

/-- The due time of a todo without begin, with and without a zone. -/
example : dstEnv.normalizeSpan ⟨some (.zone 1), .replace, .ignore⟩ { cls := .todo, end? := some ⟨dayNo 737511, false, none⟩ } =
      .ok { cls := .todo, end? := some ⟨dayNo 737511, false, some (.zone 1)⟩ } ∧
    dstEnv.normalizeSpan ⟨some (.zone 1), .replace, .ignore⟩ { cls := .todo, end? := some ⟨dayNo 737511, false, some (.zone 0)⟩ } =
      .ok { cls := .todo, end? := some ⟨dayNo 737511, false, some (.zone 0)⟩ } := by decide +kernel

/-- C50: an all-day span cannot be normalized; every setting that treats floating times raises
`ValueError`. -/
theorem C50_all_day (e : Env) (n : Normalization) (hn : n.floating ≠ .ignore) (s : Span)
    (hw : WellFormed e s) (hp : s.prec = .day) : e.normalizeSpan n s = .error .valueError := by
  have hf : s.isFloating = true := by
    unfold Span.isFloating
    cases hb : s.begin? with
    | none =>
      cases he : s.end? with
      | none => rfl
      | some en => simp [(hw.midnights hp en (Or.inr he)).1]
    | some b => simp [(hw.midnights hp b (Or.inl hb)).1]
  unfold Env.normalizeSpan
  rw [hf]
  split
  · rename_i ha; exact absurd ha hn
  · exact (C25_all_day e s _ hp).1
  · exact (C25_all_day e s _ hp).2

/-! ### Calendars -/

/-- C50, calendars: if normalizing the events (or todos) of a calendar succeeds, all-day entries are
unchanged, and the span of every other entry is its normalization; nothing else changes. -/
theorem C50_calendar (e : Env) (n : Normalization) (xs ys : List Entry)
    (h : e.normalizeAll n xs = (.ok (), ys)) :
    List.Forall₂ (fun x y : Entry => y.tsType = x.tsType ∧ y.summary = x.summary ∧
      (x.timespan.prec = .day → y = x) ∧
      (x.timespan.prec ≠ .day → e.normalizeSpan n x.timespan = .ok y.timespan)) xs ys := by
  induction xs generalizing ys with
  | nil => unfold Env.normalizeAll at h; injection h with _ h; subst h; exact .nil
  | cons x xs ih =>
    unfold Env.normalizeAll at h
    by_cases hd : x.timespan.isAllDay = true
    · rw [if_pos hd] at h
      injection h with h1 h2
      subst h2
      have hp : x.timespan.prec = .day := by simpa [Span.isAllDay] using hd
      exact .cons ⟨rfl, rfl, fun _ => rfl, fun hx => absurd hp hx⟩ (ih _ (Prod.ext h1 rfl))
    · rw [if_neg hd] at h
      have hp : ¬ x.timespan.prec = .day := by simpa [Span.isAllDay] using hd
      have key : ∀ v : Except PyErr Span, ∀ y, e.assign v x = (.ok (), y) →
          ∃ t, v = .ok t ∧ y = { x with timespan := t } := by
        intro v y hv
        unfold Env.assign at hv
        cases v with
        | error err => injection hv with h1; cases h1
        | ok t =>
          dsimp only at hv
          unfold Env.setTimespan at hv
          split at hv
          · injection hv with h1; cases h1
          · injection hv with _ h2; exact ⟨t, rfl, h2.symm⟩
      have hone : ∀ y, e.normalizeEntry n x = (.ok (), y) →
          ∃ t, e.normalizeSpan n x.timespan = .ok t ∧ y = { x with timespan := t } := by
        intro y hy
        unfold Env.normalizeEntry at hy
        unfold Env.normalizeSpan
        split at hy
        · rename_i ha; rw [ha]; injection hy with _ hy; subst hy; exact ⟨_, rfl, rfl⟩
        · rename_i ha; rw [ha]; exact key _ _ hy
        · rename_i ha; rw [ha]; exact key _ _ hy
      split at h
      · injection h with h1; cases h1
      · rename_i y hy
        injection h with h1 h2
        subst h2
        obtain ⟨t, ht, rfl⟩ := hone _ hy
        exact .cons ⟨rfl, rfl, fun hx => absurd hx hp, fun _ => ht⟩ (ih _ (Prod.ext h1 rfl))

/-- C50, calendars: a second normalization changes nothing (for objects as they come from the
constructors: the span has the class that the entry demands). -/
theorem C50_calendar_idempotent (e : Env) (n : Normalization) (z : Tz) (hz : n.replacement = some z)
    (xs ys : List Entry) (h : e.normalizeAll n xs = (.ok (), ys))
    (hx : ∀ x ∈ xs, x.timespan.cls = x.tsType ∧ WellFormed e x.timespan ∧ x.timespan.InRange) :
    e.normalizeAll n ys = (.ok (), ys) := by
  induction xs generalizing ys with
  | nil => unfold Env.normalizeAll at h; injection h with _ h; subst h; rfl
  | cons x xs ih =>
    have hall := C50_calendar e n _ _ h
    cases hall with
    | cons hxy hrest =>
      rename_i y ys'
      have hxs : e.normalizeAll n xs = (.ok (), ys') := by
        unfold Env.normalizeAll at h
        split at h
        · injection h with h1 h2
          injection h2 with h2 h3
          exact Prod.ext h1 h3
        · split at h
          · injection h with h1; cases h1
          · injection h with h1 h2
            injection h2 with h2 h3
            exact Prod.ext h1 h3
      have ih' := ih _ hxs (fun x' hx' => hx x' (List.mem_cons_of_mem _ hx'))
      obtain ⟨h1, h2, h3, h4⟩ := hxy
      unfold Env.normalizeAll
      by_cases hp : x.timespan.prec = .day
      · have := h3 hp
        subst this
        rw [if_pos (by simpa [Span.isAllDay] using hp), ih']
      · have ht := h4 hp
        have hid := C50_span_idempotent e n z hz _ _ ht
        have hg := hx x (List.mem_cons_self ..)
        -- the span of `y` is as good as that of `x`
        have hgood : e.validateTimespan y.tsType y.timespan = .ok () ∧ y.timespan.prec ≠ .day := by
          have hcls : ∀ t : Span, t.cls = x.timespan.cls → e.validate t = .ok () →
              e.validateTimespan y.tsType t = .ok () := by
            intro t hc hv
            unfold Env.validateTimespan isInstance
            rw [h1, hc, hg.1]
            simp [hv]
          unfold Env.normalizeSpan at ht
          split at ht
          · injection ht with ht
            rw [← ht]
            exact ⟨hcls _ rfl ((validate_ok e _ hg.2.2).2 hg.2.1), hp⟩
          · unfold Env.replaceTimezone at ht
            split at ht
            · cases ht
            · obtain ⟨hv, ht⟩ := mkSpan_ok.1 ht
              rw [← ht]
              exact ⟨hcls _ rfl hv, hp⟩
          · obtain ⟨-, b, en, -, -, hm⟩ := convertTimezone_ok ht
            obtain ⟨hv, ht⟩ := mkSpan_ok.1 hm
            rw [← ht]
            exact ⟨hcls _ rfl hv, hp⟩
        have hent : e.normalizeEntry n y = (.ok (), y) := by
          have hset : e.setTimespan y.timespan y = (.ok (), y) := by
            unfold Env.setTimespan
            rw [hgood.1]
          unfold Env.normalizeEntry
          unfold Env.normalizeSpan at hid
          split at hid
          · rename_i ha; rw [ha]
          · rename_i ha
            rw [ha]
            show e.assign (e.replaceTimezone y.timespan n.replacement) y = _
            rw [hid]
            exact hset
          · rename_i ha
            rw [ha]
            show e.assign (e.convertTimezone y.timespan n.replacement) y = _
            rw [hid]
            exact hset
        rw [if_neg (by simpa [Span.isAllDay] using hgood.2), hent]
        dsimp only
        rw [ih']

/-- A calendar with a floating event, an all-day event and one in another zone. -/
example : dstEnv.normalizeAll ⟨some (.zone 1), .replace, .convert⟩
    [⟨.event, ⟨.event, some ⟨dayNo 737511, false, none⟩, none, none, .second⟩, none⟩,
      ⟨.event, ⟨.event, some ⟨dayNo 737511, false, none⟩, none, none, .day⟩, none⟩,
      ⟨.event, ⟨.event, some ⟨dayNo 737511, false, some (.zone 0)⟩, none, none, .second⟩, none⟩] =
    (.ok (), [⟨.event, ⟨.event, some ⟨dayNo 737511, false, some (.zone 1)⟩, none, none, .second⟩, none⟩,
      ⟨.event, ⟨.event, some ⟨dayNo 737511, false, none⟩, none, none, .day⟩, none⟩,
      ⟨.event, ⟨.event, some ⟨dayNo 737511 + hours 1, false, some (.zone 1)⟩, none, none, .second⟩,
        none⟩]) := by decide +kernel

/-- A failing normalization of a calendar is not undone: the events before the failing one stay
normalized. -/
theorem C50_calendar_not_atomic : ∃ (n : Normalization) (xs ys : List Entry),
    dstEnv.normalizeAll n xs = (.error .valueError, ys) ∧ xs ≠ ys :=
  ⟨⟨some (.zone 1), .convert, .convert⟩,
    [⟨.event, ⟨.event, some ⟨dayNo 737511, false, some (.zone 0)⟩, none, none, .second⟩, none⟩,
      ⟨.event, ⟨.event, some ⟨dayNo 737722 + hours 1 - 600000000, false, some (.zone 0)⟩,
        some ⟨dayNo 737722 + hours 1 + 600000000, false, some (.zone 0)⟩, none, .second⟩, none⟩],
    [⟨.event, ⟨.event, some ⟨dayNo 737511 + hours 1, false, some (.zone 1)⟩, none, none, .second⟩, none⟩,
      ⟨.event, ⟨.event, some ⟨dayNo 737722 + hours 1 - 600000000, false, some (.zone 0)⟩,
        some ⟨dayNo 737722 + hours 1 + 600000000, false, some (.zone 0)⟩, none, .second⟩, none⟩],
    by decide +kernel⟩

end Ics
