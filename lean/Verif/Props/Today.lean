import Verif.Props.Timeline

/-
C54, C55: queries about incomplete spans, and `today()`.
-/
namespace Ics

/-! ### C54: queries about incomplete spans -/

/-- C54: a query that needs the begin of a span that has none raises `ValueError`, whatever the other
span is; so it never gives a made-up answer.  (`ends_within` does not need the begin of the first
span.) -/
theorem C54_no_begin (e : Env) (k : Nat) (s o : Span) (b' en' t : DT) (hc : s.cls ≠ .todo)
    (hb : s.begin? = none) (he : ∀ en, s.end? = some en → e.Convertible en) (ho : e.Timed o b' en')
    (ht : e.Convertible t) :
    e.intersects k s o = .error .valueError ∧ e.intersects k o s = .error .valueError ∧
    e.includes k s o = .error .valueError ∧ e.includes k o s = .error .valueError ∧
    e.isIncludedIn k s o = .error .valueError ∧ e.isIncludedIn k o s = .error .valueError ∧
    e.startsWithin k s o = .error .valueError ∧ e.startsWithin k o s = .error .valueError ∧
    e.endsWithin k o s = .error .valueError ∧ e.includesInstant k s t = .error .valueError := by
  have hq : ∀ i, ∃ x, e.spanTuple i none s = .ok (none, x) := by
    intro i
    unfold Env.spanTuple Env.effEnd
    rw [hb]
    cases hen : s.end? with
    | none => exact ⟨none, by simp [hc, Env.normalizeOpt, bind, Except.bind]⟩
    | some en =>
      refine ⟨some (e.normd (i + 1) en), bind_ok_iff.2 ⟨none, rfl, bind_ok_iff.2 ⟨_, rfl, bind_ok_iff.2
        ⟨_, normalizeOpt_some.2 ⟨he en hen, rfl⟩, ?_⟩⟩⟩⟩
      rw [if_neg hc]
  obtain ⟨x, hx⟩ := hq k
  obtain ⟨y, hy⟩ := hq (k + 2)
  refine ⟨?_, ?_, ?_, ?_, ?_, ?_, ?_, ?_, ?_, ?_⟩ <;>
    simp [Env.intersects, Env.includes, Env.isIncludedIn, Env.startsWithin, Env.endsWithin,
      Env.includesInstant, hx, hy, queryTuple ho, normalizeDT_ok.2 ⟨ht, rfl⟩, requireAll, requireSome, bind,
      Except.bind]

example : dstEnv.intersects 0 ⟨.event, none, none, none, .second⟩ exSpan = .error .valueError := by
  decide +kernel

/-- C54: the same for a span without end (a plain one; events have an effective end).
(`starts_within` does not need the end of the first span.) -/
theorem C54_no_end (e : Env) (k : Nat) (s o : Span) (b b' en' t : DT) (hc : s.cls = .plain)
    (hb : s.begin? = some b) (he : s.end? = none) (hd : s.dur? = none) (hv : e.Convertible b)
    (ho : e.Timed o b' en') (ht : e.Convertible t) :
    e.intersects k s o = .error .valueError ∧ e.intersects k o s = .error .valueError ∧
    e.includes k s o = .error .valueError ∧ e.includes k o s = .error .valueError ∧
    e.isIncludedIn k s o = .error .valueError ∧ e.isIncludedIn k o s = .error .valueError ∧
    e.endsWithin k s o = .error .valueError ∧ e.startsWithin k o s = .error .valueError ∧
    e.endsWithin k o s = .error .valueError ∧ e.includesInstant k s t = .error .valueError := by
  have hq : ∀ i, e.spanTuple i none s = .ok (some (e.normd i b), none) := by
    intro i
    have hend : e.effEnd s = .ok none := by
      unfold Env.effEnd Env.effDur
      rw [he, hb, hd, hc]
    unfold Env.spanTuple
    rw [hb, hend]
    refine bind_ok_iff.2 ⟨_, normalizeOpt_some.2 ⟨hv, rfl⟩, bind_ok_iff.2 ⟨_, rfl, bind_ok_iff.2
      ⟨none, rfl, ?_⟩⟩⟩
    rw [if_neg (by simp [hc])]
  refine ⟨?_, ?_, ?_, ?_, ?_, ?_, ?_, ?_, ?_, ?_⟩ <;>
    simp [Env.intersects, Env.includes, Env.isIncludedIn, Env.startsWithin, Env.endsWithin,
      Env.includesInstant, hq, queryTuple ho, normalizeDT_ok.2 ⟨ht, rfl⟩, requireAll, requireSome, bind,
      Except.bind]

example : dstEnv.includes 0 exSpan ⟨.plain, exSpan.begin?, none, none, .second⟩ = .error .valueError := by
  decide +kernel

/-- C54: a query that does not need the end, or the begin, is answered without it as with it: `starts_within` of a span
without end, and `ends_within` of a span without begin. -/
theorem C54_not_needed (e : Env) (k : Nat) (s o : Span) (b en b' en' : DT) (hs : e.Timed s b en) (ho : e.Timed o b' en')
    (fs : s.Fresh k) (fo : o.Fresh k) :
    (s.cls = .plain → (e.startsWithin k s o).isOk = true ∧
      e.startsWithin k { s with end? := none, dur? := none } o = e.startsWithin k s o) ∧
    (s.end? = some en → (e.endsWithin k s o).isOk = true ∧
      e.endsWithin k { s with begin? := none } o = e.endsWithin k s o) := by
  have hs0 := hs
  obtain ⟨hc, hb, he, h1, h2⟩ := hs
  constructor
  · intro hp
    have hq : e.spanTuple k none { s with end? := none, dur? := none } = .ok (some (e.normd k b), none) := by
      have hend : e.effEnd { s with end? := none, dur? := none } = .ok none := by
        unfold Env.effEnd Env.effDur
        dsimp only
        rw [hb, hp]
      unfold Env.spanTuple
      rw [hend]
      dsimp only
      rw [hb]
      refine bind_ok_iff.2 ⟨_, normalizeOpt_some.2 ⟨h1, rfl⟩, bind_ok_iff.2 ⟨_, rfl, bind_ok_iff.2
        ⟨none, rfl, ?_⟩⟩⟩
      rw [if_neg (by simp [hp])]
    refine ⟨by rw [startsWithin_eq hs0 ho fs fo]; rfl, ?_⟩
    simp [Env.startsWithin, hq, queryTuple hs0, queryTuple ho, requireAll, requireSome, bind, Except.bind, Span.tupleAttr]
  · intro hen
    have hq : e.spanTuple k none { s with begin? := none } = .ok (none, some (e.normd (k + 1) en)) := by
      have hend : e.effEnd { s with begin? := none } = .ok (some en) := by
        unfold Env.effEnd
        dsimp only
        rw [hen]
      unfold Env.spanTuple
      rw [hend]
      refine bind_ok_iff.2 ⟨_, rfl, bind_ok_iff.2 ⟨_, rfl, bind_ok_iff.2 ⟨_, normalizeOpt_some.2 ⟨h2, rfl⟩, ?_⟩⟩⟩
      rw [if_neg hc]
    refine ⟨by rw [endsWithin_eq hs0 ho fs fo]; rfl, ?_⟩
    simp [Env.endsWithin, hq, queryTuple hs0, queryTuple ho, requireAll, requireSome, bind, Except.bind, Span.tupleAttr]

/-- The span of the example without its end, and without its begin, during another one. -/
example : dstEnv.startsWithin 0 ⟨.plain, exSpan.begin?, none, none, .second⟩ exSpan = .ok true ∧
    (dstEnv.endsWithin 0 ⟨.event, none, exSpan.end?, none, .second⟩ exSpan).isOk = true := by
  decide +kernel

/-! ### C55: today -/

theorem latestMidnight_eq {w m : Int} (h : LatestMidnight w m) : w - w % dayUs = m := by
  obtain ⟨⟨q, rfl⟩, h1, h2⟩ := h
  have h3 := h2 (w - w % dayUs) ⟨w / dayUs, by unfold dayUs; omega⟩ (by unfold dayUs; omega)
  unfold dayUs at h3 ⊢
  omega

/-- C55 (for tidy times), at every time of the day, its last second included: `today()` yields exactly
the events that have an instant on the day shown by the local clock, if no event is empty, begins with
the next day or ends with the day before.  Missing: those cases (see `C35_touching_fails`), the last day
of the year 9999, times in gaps and overlaps. -/
theorem C55_partial (e : Env) (hl : e.Lawful (.loc 0)) (T : DT → Prop) (ht : e.Tidy T) (k : Nat)
    (evs : List TEvent) (its : List TItem) (now m : Int) (hm : LatestMidnight now m) (h0 : 0 ≤ m)
    (hmax : m + 24 * 60 * 60 * 1000000 < maxWall) (hi : e.iterator k none evs = .ok its)
    (ha : e.AllTimed T k its)
    (c1 : e.Convertible ⟨m, false, none⟩) (c2 : e.Convertible ⟨m + 24 * 60 * 60 * 1000000, false, none⟩)
    (t3 : T ⟨m, false, none⟩) (t4 : T ⟨m + 24 * 60 * 60 * 1000000, false, none⟩)
    (hday : e.instant ⟨m, false, none⟩ < e.instant ⟨m + 24 * 60 * 60 * 1000000, false, none⟩)
    (hd : ∀ it ∈ its, ∀ b en, e.Takes it b en → b < en ∧
      b ≠ e.instant ⟨m + 24 * 60 * 60 * 1000000, false, none⟩ ∧ en ≠ e.instant ⟨m, false, none⟩) :
    ∃ r, e.today k none evs now false = .ok r ∧
      Selects its r (fun it => ∀ b en, e.Takes it b en → ∃ t, During b en t ∧
        During (e.instant ⟨m, false, none⟩) (e.instant ⟨m + 24 * 60 * 60 * 1000000, false, none⟩) t) := by
  have hw : now - now % dayUs = m := latestMidnight_eq hm
  have h2 : LatestMidnight m m := ⟨hm.1, Int.le_refl _, fun m' _ h => h⟩
  unfold Env.today
  rw [hw]
  exact C35_partial e hl T ht k evs its ⟨m, false, none⟩ m ⟨by dsimp only; omega, by dsimp only; omega⟩ h2
    (by dsimp only; omega) hmax hi ha (fun i hi => by cases hi) c1 c2 t3 t4 hday hd

/-- C55, `strict` (for tidy times): the events lying entirely in the day shown by the local clock, if
no event is empty or ends with the day. -/
theorem C55_strict_partial (e : Env) (hl : e.Lawful (.loc 0)) (T : DT → Prop) (ht : e.Tidy T) (k : Nat)
    (evs : List TEvent) (its : List TItem) (now m : Int) (hm : LatestMidnight now m) (h0 : 0 ≤ m)
    (hmax : m + 24 * 60 * 60 * 1000000 < maxWall) (hi : e.iterator k none evs = .ok its)
    (ha : e.AllTimed T k its)
    (c1 : e.Convertible ⟨m, false, none⟩) (c2 : e.Convertible ⟨m + 24 * 60 * 60 * 1000000, false, none⟩)
    (t3 : T ⟨m, false, none⟩) (t4 : T ⟨m + 24 * 60 * 60 * 1000000, false, none⟩)
    (hd : ∀ it ∈ its, ∀ b en, e.Takes it b en → b < en ∧
      en ≠ e.instant ⟨m + 24 * 60 * 60 * 1000000, false, none⟩) :
    ∃ r, e.today k none evs now true = .ok r ∧
      Selects its r (fun it => ∀ b en, e.Takes it b en → ∀ t, During b en t →
        During (e.instant ⟨m, false, none⟩) (e.instant ⟨m + 24 * 60 * 60 * 1000000, false, none⟩) t) := by
  have hw : now - now % dayUs = m := latestMidnight_eq hm
  have h2 : LatestMidnight m m := ⟨hm.1, Int.le_refl _, fun m' _ h => h⟩
  unfold Env.today
  rw [hw]
  exact C35_strict_partial e hl T ht k evs its ⟨m, false, none⟩ m
    ⟨by dsimp only; omega, by dsimp only; omega⟩ h2 (by dsimp only; omega) hmax hi ha
    (fun i hi => by cases hi) c1 c2 t3 t4 hd

example : dstEnv.today 0 none [exEvent2, exEvent1] (dayNo 737511 + hours 24 - 1) false =
    .ok [exEvent1, exEvent2] := by
  decide +kernel

end Ics
