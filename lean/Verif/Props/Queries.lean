import Verif.Props.Compare

/-
C30-C32: interval queries.
-/
namespace Ics

/-! ### C30: intersects -/

/-- C30: `intersects` is symmetric, in all cases. -/
theorem C30_symm (e : Env) (k j : Nat) (s o : Span) (b en b' en' : DT) (hs : e.Timed s b en)
    (ho : e.Timed o b' en') (fs : s.Fresh k) (fo : o.Fresh k) (fs' : s.Fresh j) (fo' : o.Fresh j) :
    e.intersects k s o = e.intersects j o s := by
  rw [intersects_eq hs ho fs fo, intersects_eq ho hs fo' fs']
  congr 1
  rw [Bool.eq_iff_iff]
  simp only [Bool.or_eq_true, Bool.and_eq_true]
  constructor <;> rintro (h | h | h | h) <;> simp [h]

/-- Exactly when two spans intersect according to the code (for tidy times): the closed intervals
have an instant in common, unless they have the same end and one of them is empty. -/
theorem C30_exact_partial (e : Env) (hl : e.Lawful (.loc 0)) (T : DT → Prop) (ht : e.Tidy T) (k : Nat)
    (s o : Span) (b en b' en' : DT) (hs : e.Timed s b en) (ho : e.Timed o b' en') (fs : s.Fresh k)
    (fo : o.Fresh k) (t1 : T b) (t2 : T en) (t3 : T b') (t4 : T en')
    (h1 : e.instant b ≤ e.instant en) (h2 : e.instant b' ≤ e.instant en') :
    e.intersects k s o = .ok (decide (e.instant b ≤ e.instant en' ∧ e.instant b' ≤ e.instant en ∧
      ¬ (e.instant en = e.instant en' ∧ (e.instant b = e.instant en ∨ e.instant b' = e.instant en')))) := by
  rw [intersects_eq hs ho fs fo]
  simp only [tidy_lt hl ht t1 t4, tidy_lt hl ht t2 t4, tidy_lt hl ht t3 t2, tidy_lt hl ht t4 t2,
    tidy_le hl ht t3 t1, tidy_le hl ht t3 t2, tidy_le hl ht t1 t3, tidy_le hl ht t1 t4]
  congr 1
  rw [Bool.eq_iff_iff]
  simp only [Bool.or_eq_true, Bool.and_eq_true, decide_eq_true_iff]
  omega

/-- C30, one direction: spans with an instant in common intersect. -/
theorem C30_common (e : Env) (hl : e.Lawful (.loc 0)) (T : DT → Prop) (ht : e.Tidy T) (k : Nat)
    (s o : Span) (b en b' en' : DT) (hs : e.Timed s b en) (ho : e.Timed o b' en') (fs : s.Fresh k)
    (fo : o.Fresh k) (t1 : T b) (t2 : T en) (t3 : T b') (t4 : T en')
    (h : ∃ t, During (e.instant b) (e.instant en) t ∧ During (e.instant b') (e.instant en') t) :
    e.intersects k s o = .ok true := by
  unfold During at h
  obtain ⟨t, ⟨h1, h2⟩, h3, h4⟩ := h
  rw [C30_exact_partial e hl T ht k s o b en b' en' hs ho fs fo t1 t2 t3 t4 (by omega) (by omega)]
  congr 1
  rw [decide_eq_true_iff]
  omega

/-- C30, both directions, if no span is empty and neither begins where the other ends.  Missing: those
cases, see `C30_fails`. -/
theorem C30_partial (e : Env) (hl : e.Lawful (.loc 0)) (T : DT → Prop) (ht : e.Tidy T) (k : Nat)
    (s o : Span) (b en b' en' : DT) (hs : e.Timed s b en) (ho : e.Timed o b' en') (fs : s.Fresh k)
    (fo : o.Fresh k) (t1 : T b) (t2 : T en) (t3 : T b') (t4 : T en')
    (n1 : e.instant b < e.instant en) (n2 : e.instant b' < e.instant en')
    (d1 : e.instant b ≠ e.instant en') (d2 : e.instant b' ≠ e.instant en) :
    e.intersects k s o = .ok true ↔
      ∃ t, During (e.instant b) (e.instant en) t ∧ During (e.instant b') (e.instant en') t := by
  rw [C30_exact_partial e hl T ht k s o b en b' en' hs ho fs fo t1 t2 t3 t4 (by omega) (by omega)]
  simp only [Except.ok.injEq, decide_eq_true_iff]
  unfold During
  constructor
  · intro h
    by_cases c : e.instant b ≤ e.instant b'
    · exact ⟨e.instant b', by omega⟩
    · exact ⟨e.instant b, by omega⟩
  · rintro ⟨t, h⟩
    omega

/-- The hypotheses of C30 and C31 hold for `exSpan`. -/
theorem exSpan_timed : dstEnv.Timed exSpan ⟨dayNo 737511 + hours 10, false, some (.zone 1)⟩
    ⟨dayNo 737512 + hours 12, false, some (.zone 1)⟩ := by
  refine ⟨by decide, by decide +kernel, by decide +kernel, ?_, ?_⟩ <;> (intro h; cases h)

example : dstEnv.intersects 0 exSpan ⟨.event, some ⟨dayNo 737511 + hours 20, false, none⟩, none,
    some (hours 30), .second⟩ = .ok true := by decide +kernel

/-- C30 is false in general: 12:00-13:00 and 13:00-14:00 intersect according to the code. -/
theorem C30_fails : ∃ (s o : Span) (b en b' en' : DT), dstEnv.mkSpan s = .ok s ∧
    dstEnv.mkSpan o = .ok o ∧ s.begin? = some b ∧ s.end? = some en ∧ o.begin? = some b' ∧
    o.end? = some en' ∧ dstEnv.intersects 0 s o = .ok true ∧
    ¬ ∃ t, During (dstEnv.instant b) (dstEnv.instant en) t ∧
      During (dstEnv.instant b') (dstEnv.instant en') t := by
  refine ⟨⟨.event, some ⟨dayNo 737511 + hours 12, false, some (.zone 0)⟩,
    some ⟨dayNo 737511 + hours 13, false, some (.zone 0)⟩, none, .second⟩,
    ⟨.event, some ⟨dayNo 737511 + hours 13, false, some (.zone 0)⟩,
    some ⟨dayNo 737511 + hours 14, false, some (.zone 0)⟩, none, .second⟩, _, _, _, _,
    by decide +kernel, by decide +kernel, rfl, rfl, rfl, rfl, by decide +kernel, ?_⟩
  rintro ⟨t, ⟨h1, h2⟩, h3, h4⟩
  have : dstEnv.instant ⟨dayNo 737511 + hours 13, false, some (.zone 0)⟩ ≤
    dstEnv.instant ⟨dayNo 737511 + hours 13, false, some (.zone 0)⟩ := Int.le_refl _
  omega

/-! ### C31: includes -/

/-- C31: `a.includes(b)` is `b.is_included_in(a)`, in all cases. -/
theorem C31_swap (e : Env) (k j : Nat) (s o : Span) (b en b' en' : DT) (hs : e.Timed s b en)
    (ho : e.Timed o b' en') (fs : s.Fresh k) (fo : o.Fresh k) (fs' : s.Fresh j) (fo' : o.Fresh j) :
    e.includes k s o = e.isIncludedIn j o s := by
  rw [includes_eq hs ho fs fo, isIncludedIn_eq ho hs fo' fs']

/-- C31, instants: `a.includes(t)` iff `t` is an instant of `a` (for tidy times; in an hour that
occurs twice it is false, `C31_instant_fails`). -/
theorem C31_instant_partial (e : Env) (hl : e.Lawful (.loc 0)) (T : DT → Prop) (ht : e.Tidy T) (k : Nat)
    (s : Span) (b en t : DT) (hs : e.Timed s b en) (hc : e.Convertible t) (fs : s.Fresh k)
    (ft : t.Fresh k) (t1 : T b) (t2 : T en) (t3 : T t) :
    e.includesInstant k s t = .ok true ↔ During (e.instant b) (e.instant en) (e.instant t) := by
  rw [includesInstant_eq hs hc fs ft]
  simp only [tidy_lt hl ht t3 t2, tidy_le hl ht t1 t3, Except.ok.injEq, Bool.and_eq_true,
    decide_eq_true_iff]
  exact Iff.rfl

/-- C31: if `a` includes `b`, every instant of `b` is an instant of `a`. -/
theorem C31_includes (e : Env) (hl : e.Lawful (.loc 0)) (T : DT → Prop) (ht : e.Tidy T) (k : Nat)
    (s o : Span) (b en b' en' : DT) (hs : e.Timed s b en) (ho : e.Timed o b' en') (fs : s.Fresh k)
    (fo : o.Fresh k) (t1 : T b) (t2 : T en) (t3 : T b') (t4 : T en')
    (h : e.includes k s o = .ok true) :
    ∀ t, During (e.instant b') (e.instant en') t → During (e.instant b) (e.instant en) t := by
  rw [includes_eq hs ho fs fo] at h
  simp only [tidy_lt hl ht t4 t2, tidy_le hl ht t1 t3, Except.ok.injEq, Bool.and_eq_true,
    decide_eq_true_iff] at h
  unfold During
  intro t ht
  omega

/-- C31, converse: if every instant of the nonempty `b` is one of `a` and they have different ends,
`a` includes `b`.  Missing: equal ends, see `C31_fails`. -/
theorem C31_converse_partial (e : Env) (hl : e.Lawful (.loc 0)) (T : DT → Prop) (ht : e.Tidy T) (k : Nat)
    (s o : Span) (b en b' en' : DT) (hs : e.Timed s b en) (ho : e.Timed o b' en') (fs : s.Fresh k)
    (fo : o.Fresh k) (t1 : T b) (t2 : T en) (t3 : T b') (t4 : T en')
    (hn : e.instant b' < e.instant en') (hd : e.instant en' ≠ e.instant en)
    (h : ∀ t, During (e.instant b') (e.instant en') t → During (e.instant b) (e.instant en) t) :
    e.includes k s o = .ok true := by
  unfold During at h
  have h1 := h (e.instant b') ⟨by omega, by omega⟩
  have h2 := h (e.instant en' - 1) ⟨by omega, by omega⟩
  rw [includes_eq hs ho fs fo]
  simp only [tidy_lt hl ht t4 t2, tidy_le hl ht t1 t3, Except.ok.injEq, Bool.and_eq_true,
    decide_eq_true_iff]
  omega

example : dstEnv.includes 0 exSpan ⟨.event, some ⟨dayNo 737511 + hours 20, false, none⟩, none,
    some (hours 3), .second⟩ = .ok true ∧
    dstEnv.includesInstant 0 exSpan ⟨dayNo 737511 + hours 20, false, none⟩ = .ok true := by
  decide +kernel

/-- C31 is false in general: no span includes itself. -/
theorem C31_fails (e : Env) (k : Nat) (s : Span) (b en : DT) (hs : e.Timed s b en) (fs : s.Fresh k) :
    e.includes k s s = .ok false := by
  rw [includes_eq hs hs fs fs]
  have : e.nsub en en = 0 := by have := nsub_anti e en en; omega
  simp [this]

/-- C31 is false for an instant in an hour that occurs twice: 02:10-02:50 in summer time "includes"
02:30 in winter time. -/
theorem C31_instant_fails : ∃ (s : Span) (b en t : DT), dstEnv.mkSpan s = .ok s ∧ s.begin? = some b ∧
    s.end? = some en ∧ dstEnv.includesInstant 0 s t = .ok true ∧
    dstEnv.instant en < dstEnv.instant t := by
  refine ⟨⟨.event, some ⟨dayNo 737722 + hours 2 + 600000000, false, some (.zone 1)⟩,
    some ⟨dayNo 737722 + hours 2 + 3000000000, false, some (.zone 1)⟩, none, .second⟩, _, _,
    ⟨dayNo 737722 + hours 2 + 1800000000, true, some (.zone 1)⟩, by decide +kernel, rfl, rfl,
    by decide +kernel, by decide +kernel⟩

/-! ### C32: todos -/

/-- C32 is false for every todo with begin and due: all queries raise `AttributeError`, on the todo
and about the todo. -/
theorem C32_fails (e : Env) (k : Nat) (s o : Span) (b en b' en' t : DT) (hc : s.cls = .todo)
    (hs : e.Timed { s with cls := .plain } b en) (ho : e.Timed o b' en')
    (hd : s.end? ≠ none ∨ s.dur? ≠ none) (ht : e.Convertible t) :
    e.startsWithin k s o = .error .attributeError ∧ e.endsWithin k s o = .error .attributeError ∧
    e.intersects k s o = .error .attributeError ∧ e.includes k s o = .error .attributeError ∧
    e.isIncludedIn k s o = .error .attributeError ∧ e.includesInstant k s t = .error .attributeError ∧
    e.startsWithin k o s = .error .attributeError ∧ e.endsWithin k o s = .error .attributeError ∧
    e.intersects k o s = .error .attributeError ∧ e.includes k o s = .error .attributeError ∧
    e.isIncludedIn k o s = .error .attributeError := by
  have hend : e.effEnd s = .ok (some en) := by
    rw [← hs.2.2.1]
    unfold Env.effEnd Env.effDur
    rcases hd with hd | hd
    · cases h : s.end? with
      | none => exact absurd h hd
      | some x => rfl
    · cases h : s.dur? with
      | none => exact absurd h hd
      | some x => rfl
  have hq : ∀ i, e.spanTuple i none s = .ok (some (e.normd (i + 1) en), some (e.normd i b)) := by
    intro i
    unfold Env.spanTuple
    have hb : s.begin? = some b := hs.2.1
    rw [hb, hend]
    refine bind_ok_iff.2 ⟨_, normalizeOpt_some.2 ⟨hs.2.2.2.1, rfl⟩, bind_ok_iff.2 ⟨_, rfl, bind_ok_iff.2
      ⟨_, normalizeOpt_some.2 ⟨hs.2.2.2.2, rfl⟩, ?_⟩⟩⟩
    rw [if_pos hc]
  have ha : ∀ d, s.tupleAttr d = .error .attributeError := by
    intro d; unfold Span.tupleAttr; rw [if_pos hc]
  unfold Env.startsWithin Env.endsWithin Env.intersects Env.includes Env.isIncludedIn Env.includesInstant
  simp only [hq, queryTuple ho, normalizeDT_ok.2 ⟨ht, rfl⟩, bind, Except.bind, requireAll_some, ha,
    Env.within, Env.containedIn, orElse, tupleAttr_some ho.1, requireSome, Option.isNone_some,
    Bool.and_false, Bool.false_eq_true, if_false, and_self]

example : dstEnv.mkSpan { exSpan with cls := .todo } = .ok { exSpan with cls := .todo } ∧
    dstEnv.intersects 0 { exSpan with cls := .todo } exSpan = .error .attributeError := by
  decide +kernel

/-- C32 for the other kind of span: the queries give the same answers for a plain span with an end or
a duration as for the event span with these values.  Missing: todos, see `C32_fails`. -/
theorem C32_partial (e : Env) (k : Nat) (s o : Span) (t : DT) (hc : s.cls = .plain)
    (hd : s.end? ≠ none ∨ s.dur? ≠ none) :
    e.startsWithin k { s with cls := .event } o = e.startsWithin k s o ∧
    e.endsWithin k { s with cls := .event } o = e.endsWithin k s o ∧
    e.intersects k { s with cls := .event } o = e.intersects k s o ∧
    e.includes k { s with cls := .event } o = e.includes k s o ∧
    e.isIncludedIn k { s with cls := .event } o = e.isIncludedIn k s o ∧
    e.includesInstant k { s with cls := .event } t = e.includesInstant k s t := by
  rcases s with ⟨cls, b, en, d, p⟩
  dsimp only at hc hd
  subst hc
  have hend : e.effEnd ⟨.event, b, en, d, p⟩ = e.effEnd ⟨.plain, b, en, d, p⟩ := by
    unfold Env.effEnd Env.effDur
    rcases hd with hd | hd
    · cases h : en with
      | none => exact absurd h hd
      | some x => rfl
    · cases h : d with
      | none => exact absurd h hd
      | some x => rfl
  have hq : ∀ i, e.spanTuple i none ⟨.event, b, en, d, p⟩ = e.spanTuple i none ⟨.plain, b, en, d, p⟩ := by
    intro i
    unfold Env.spanTuple
    rw [hend]
    simp
  have ha : ∀ x, (⟨.event, b, en, d, p⟩ : Span).tupleAttr x = (⟨.plain, b, en, d, p⟩ : Span).tupleAttr x := by
    intro x; unfold Span.tupleAttr; simp
  unfold Env.startsWithin Env.endsWithin Env.intersects Env.includes Env.isIncludedIn Env.includesInstant
  simp only [hq, ha, and_self]

end Ics
