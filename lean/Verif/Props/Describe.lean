import Verif.Model.Describe
import Verif.Props.Timespan

/-
C73: a description shows what is stored; `replace` replaces what it is given and nothing else.
-/
namespace Ics

/-! ### replace -/

/-- C73: `replace` changes exactly what it is given; `None` is a value like others. -/
theorem C73_replace (e : Env) (s t : Span) (a : ReplaceArgs) (h : e.replace s a = .ok t) :
    t.cls = s.cls ∧ t.begin? = a.begin?.getD s.begin? ∧ t.end? = a.end?.getD s.end? ∧ t.dur? = a.dur?.getD s.dur? ∧
      t.prec = a.prec.getD s.prec ∧ e.validate t = .ok () := by
  obtain ⟨h1, rfl⟩ := mkSpan_ok.1 h
  refine ⟨rfl, ?_, ?_, ?_, ?_, h1⟩
  · dsimp only; cases a.begin? <;> rfl
  · dsimp only; cases a.end? <;> rfl
  · dsimp only; cases a.dur? <;> rfl
  · dsimp only; cases a.prec <;> rfl

/-- C73: `replace` without arguments gives the same span, for every span that could be constructed. -/
theorem C73_replace_nothing (e : Env) (s : Span) (h : e.validate s = .ok ()) : e.replace s {} = .ok s :=
  mkSpan_ok.2 ⟨h, rfl⟩

/-- C73: the setters of an event or todo are `replace`. -/
theorem C73_setters (e : Env) (x : Entry) (b en : Option DT) (d : Option Int) :
    e.edit x (.begin b) = e.assign (e.replace x.timespan { begin? := some b }) x ∧
    e.edit x (.end_ en) = e.assign (e.replace x.timespan { end? := some en, dur? := some none }) x ∧
    e.edit x (.duration d) = e.assign (e.replace x.timespan { dur? := some d, end? := some none }) x ∧
    e.edit x .unsetAllDay = e.assign (e.replace x.timespan { prec := some (.other "seconds".toList) }) x :=
  ⟨rfl, rfl, rfl, rfl⟩

/-! ### Descriptions -/

theorem suffix_shape {e : Env} {v : Shown} {s : Span} {l : List Str} (hw : WellFormed e s)
    (h : e.describeSuffix v s = .ok l) :
    (∃ b d Y, s.begin? = some b ∧ s.end? = none ∧ s.dur? = some d ∧
      l = ["begin:".toList, s.show v b, s.cls.endWord ++ [':'], Y, "fixed".toList, "duration:".toList, v.td d]) ∨
    (∃ b en Z, s.begin? = some b ∧ s.end? = some en ∧ s.dur? = none ∧
      l = ["begin:".toList, s.show v b, "fixed".toList, s.cls.endWord ++ [':'], s.show v en, "duration:".toList, Z]) ∨
    (∃ en, s.begin? = none ∧ s.end? = some en ∧ s.dur? = none ∧
      l = ["fixed".toList, s.cls.endWord ++ [':'], s.show v en]) ∨
    (∃ b Y, s.begin? = some b ∧ s.end? = none ∧ s.dur? = none ∧ s.cls = .event ∧
      l = ["begin:".toList, s.show v b, s.cls.endWord ++ [':'], Y]) ∨
    (∃ b, s.begin? = some b ∧ s.end? = none ∧ s.dur? = none ∧ s.cls ≠ .event ∧ l = ["begin:".toList, s.show v b]) ∨
    (s.begin? = none ∧ s.end? = none ∧ s.dur? = none ∧ l = []) := by
  unfold Env.describeSuffix at h
  simp only at h
  rw [bind_ok_iff] at h
  obtain ⟨en', he, h⟩ := h
  rw [bind_ok_iff] at h
  obtain ⟨dur', hd, h⟩ := h
  injection h with h
  subst h
  unfold Env.effEnd at he
  unfold Env.effDur at hd he
  unfold Span.endRepr
  cases hdur : s.dur? with
  | some d =>
    have hend : s.end? = none := by
      rcases hw.notBoth with h | h
      · exact h
      · rw [hdur] at h; cases h
    cases hb : s.begin? with
    | none => exact absurd hb (hw.durBegin (by rw [hdur]; exact nofun))
    | some b =>
      simp only [hdur, hend, hb] at he hd
      injection hd with hd
      subst hd
      split at he
      · injection he with he
        subst he
        exact .inl ⟨b, d, _, rfl, hend, rfl, by simp; rfl⟩
      · cases he
  | none =>
    cases hend : s.end? with
    | some en =>
      cases hb : s.begin? with
      | none =>
        have hcls : s.cls ≠ .event := fun hc => hw.eventEnd hc (by rw [hend]; exact nofun) hb
        refine .inr (.inr (.inl ⟨en, rfl, rfl, rfl, ?_⟩))
        simp only [hdur, hend, hb] at he hd
        injection he with he
        subst he
        have : dur' = none := by
          cases hc : s.cls with
          | event => exact absurd hc hcls
          | plain => injection hd with hd; exact hd.symm
          | todo => injection hd with hd; exact hd.symm
        subst this
        simp
      | some b =>
        refine .inr (.inl ⟨b, en, ?_⟩)
        simp only [hdur, hend, hb] at he hd
        injection he with he
        subst he
        split at hd
        · injection hd with hd
          subst hd
          exact ⟨_, rfl, rfl, rfl, by simp; rfl⟩
        · cases hd
    | none =>
      cases hb : s.begin? with
      | none =>
        refine .inr (.inr (.inr (.inr (.inr ⟨rfl, rfl, rfl, ?_⟩))))
        simp only [hdur, hend, hb] at he hd
        injection he with he
        subst he
        cases dur' <;> simp
      | some b =>
        simp only [hdur, hend, hb] at he hd
        cases hc : s.cls with
        | event =>
          rw [hc] at he hd
          simp only at he hd
          injection hd with hd
          subst hd
          split at he
          · injection he with he
            subst he
            exact .inr (.inr (.inr (.inl ⟨b, _, rfl, rfl, rfl, rfl, by simp; rfl⟩)))
          · cases he
        | plain =>
          rw [hc] at he hd
          injection hd with hd
          injection he with he
          subst hd he
          exact .inr (.inr (.inr (.inr (.inl ⟨b, rfl, rfl, rfl, nofun, by simp⟩))))
        | todo =>
          rw [hc] at he hd
          injection hd with hd
          injection he with he
          subst hd he
          exact .inr (.inr (.inr (.inr (.inl ⟨b, rfl, rfl, rfl, nofun, by simp⟩))))

/-- C73: of two spans of the same class with the same description, both are all-day or none is, and they store the same of
begin, end and duration, with the same text for each; if they are not all-day, both are floating or none is. -/
theorem C73_shows (e : Env) (v : Shown) (s t : Span) (hc : s.cls = t.cls) (hs : WellFormed e s) (ht : WellFormed e t)
    (l : List Str) (h1 : e.describeSuffix v s = .ok l) (h2 : e.describeSuffix v t = .ok l)
    (hp : s.describePrefix = t.describePrefix) :
    s.isAllDay = t.isAllDay ∧ (s.isAllDay = false → s.isFloating = t.isFloating) ∧
      s.begin?.map (s.show v) = t.begin?.map (t.show v) ∧ s.end?.map (s.show v) = t.end?.map (t.show v) ∧
      s.dur?.map v.td = t.dur?.map v.td := by
  have hpre : s.isAllDay = t.isAllDay ∧ (s.isAllDay = false → s.isFloating = t.isFloating) := by
    unfold Span.describePrefix at hp
    revert hp
    generalize s.isAllDay = a
    generalize t.isAllDay = b
    generalize s.isFloating = c
    generalize t.isFloating = d
    revert a b c d
    decide
  refine ⟨hpre.1, hpre.2, ?_⟩
  have k1 : "begin:".toList ≠ "fixed".toList := by decide
  have k2 : ∀ c : SpanCls, c.endWord ++ [':'] ≠ "fixed".toList := by intro c; cases c <;> decide
  have k3 : ∀ c : SpanCls, c.endWord ++ [':'] ≠ "begin:".toList := by intro c; cases c <;> decide
  rcases suffix_shape hs h1 with ⟨b, d, Y, e1, e2, e3, rfl⟩ | ⟨b, en, Z, e1, e2, e3, rfl⟩ | ⟨en, e1, e2, e3, rfl⟩ |
      ⟨b, Y, e1, e2, e3, _, rfl⟩ | ⟨b, e1, e2, e3, _, rfl⟩ | ⟨e1, e2, e3, rfl⟩ <;>
    rcases suffix_shape ht h2 with ⟨b', d', Y', f1, f2, f3, hl⟩ | ⟨b', en', Z', f1, f2, f3, hl⟩ | ⟨en', f1, f2, f3, hl⟩ |
      ⟨b', Y', f1, f2, f3, _, hl⟩ | ⟨b', f1, f2, f3, _, hl⟩ | ⟨f1, f2, f3, hl⟩ <;>
    simp only [List.cons.injEq, and_true, true_and, List.nil_eq, List.cons_ne_self, reduceCtorEq, and_false, false_and] at hl
  all_goals
    first
    | exact absurd hl.1 k1
    | exact absurd hl.1 (Ne.symm k1)
    | exact absurd hl.2.1 (k2 _)
    | exact absurd hl.2.1 (Ne.symm (k2 _))
    | (rw [e1, e2, e3, f1, f2, f3]; simp only [Option.map_some, Option.map_none, hl, and_self])

/-- C73: a description says that the end is fixed if it is stored, and that the duration is fixed if it is stored. -/
theorem C73_fixed (e : Env) (v : Shown) (s : Span) (hs : WellFormed e s) (l : List Str) (h : e.describeSuffix v s = .ok l) :
    (∀ en, s.end? = some en → ["fixed".toList, s.cls.endWord ++ [':'], s.show v en] <:+: l) ∧
    (∀ d, s.dur? = some d → ["fixed".toList, "duration:".toList, v.td d] <:+ l) ∧
    (s.end? = none → s.dur? = none → l.length ≤ 4 ∧ l[0]? ≠ some "fixed".toList ∧ l[2]? ≠ some "fixed".toList) := by
  have hne : some "begin:".toList ≠ some "fixed".toList := by decide
  rcases suffix_shape hs h with ⟨b, d, Y, e1, e2, e3, rfl⟩ | ⟨b, en, Z, e1, e2, e3, rfl⟩ | ⟨en, e1, e2, e3, rfl⟩ |
      ⟨b, Y, e1, e2, e3, hc, rfl⟩ | ⟨b, e1, e2, e3, _, rfl⟩ | ⟨e1, e2, e3, rfl⟩ <;> rw [e2, e3]
  · exact ⟨nofun, fun d' hd => by cases hd; exact ⟨[_, _, _, _], rfl⟩, fun _ => nofun⟩
  · exact ⟨fun en' hd => by cases hd; exact ⟨[_, _], [_, _], rfl⟩, nofun, nofun⟩
  · exact ⟨fun en' hd => by cases hd; exact ⟨[], [], rfl⟩, nofun, nofun⟩
  · refine ⟨nofun, nofun, fun _ _ => ⟨by simp, hne, ?_⟩⟩
    rw [hc]
    intro h
    simp only [List.getElem?_cons_succ, List.getElem?_cons_zero, Option.some.injEq] at h
    exact absurd h (by decide)
  · exact ⟨nofun, nofun, fun _ _ => ⟨by simp, hne, by simp⟩⟩
  · exact ⟨nofun, nofun, fun _ _ => ⟨by simp, by simp, by simp⟩⟩

theorem infix_joinSpace {a : Str} {l : List Str} (h : a ∈ l) : a <:+: joinSpace l := by
  induction l with
  | nil => cases h
  | cons b l ih =>
    cases l with
    | nil =>
      rw [List.mem_singleton.1 h]
      exact List.infix_rfl
    | cons c l =>
      rw [joinSpace]
      rcases List.mem_cons.1 h with rfl | h
      · exact ⟨[], _, rfl⟩
      · obtain ⟨u, w, hu⟩ := ih h
        exact ⟨b ++ ' ' :: u, w, by rw [← hu]; simp⟩

/-- C73: an empty summary is not shown, every other summary is, in quotes. -/
theorem C73_summary (e : Env) (v : Shown) (x : Entry) :
    e.entryStr v { x with summary := some [] } = e.entryStr v { x with summary := none } ∧
    ∀ t r, t ≠ [] → e.entryStr v { x with summary := some t } = .ok r → ('\'' :: t ++ ['\'']) <:+: r := by
  refine ⟨rfl, fun t r ht h => ?_⟩
  cases t with
  | nil => exact absurd rfl ht
  | cons c t =>
    obtain ⟨l, -, h⟩ := bind_ok_iff.1 h
    injection h with h
    obtain ⟨u, w, hu⟩ := infix_joinSpace (a := '\'' :: (c :: t) ++ ['\''])
      (l := x.timespan.describePrefix ++ (if x.tsType = .todo then "Todo".toList else "Event".toList) ::
        ['\'' :: (c :: t) ++ ['\'']] ++ l) (by simp)
    exact ⟨'<' :: u, w ++ ['>'], by rw [← h, ← hu]; simp⟩

/-! ### Examples -/

/-- Values shown by their numbers. -/
def exShown : Shown := ⟨fun d => natStr d.wall.toNat, fun d => natStr (d.wall / dayUs).toNat, fun d => natStr d.toNat⟩

/-- An event with a duration, one with neither end nor duration, an all-day todo with a due date. -/
example :
    (dstEnv.spanStr exShown ⟨.event, some ⟨dayNo 2, false, none⟩, none, some 5000000, .second⟩).toOption =
      some "<floating EventTimespan begin: 172800000000 end: 172805000000 fixed duration: 5000000>".toList ∧
    (dstEnv.spanStr exShown ⟨.event, some ⟨dayNo 2, false, none⟩, none, none, .second⟩).toOption =
      some "<floating EventTimespan begin: 172800000000 end: 172800000000>".toList ∧
    (dstEnv.entryStr exShown ⟨.todo, ⟨.todo, none, some ⟨dayNo 2, false, none⟩, none, .day⟩, some "Buy milk".toList⟩).toOption =
      some "<all-day Todo 'Buy milk' fixed due: 2>".toList ∧
    (dstEnv.entryStr exShown ⟨.todo, ⟨.todo, none, some ⟨dayNo 2, false, none⟩, none, .day⟩, some []⟩).toOption =
      some "<all-day Todo fixed due: 2>".toList := by
  decide +kernel

example : dstEnv.replace ⟨.event, some ⟨dayNo 2, false, none⟩, none, some 5000000, .second⟩ { dur? := some none } =
    .ok ⟨.event, some ⟨dayNo 2, false, none⟩, none, none, .second⟩ := by decide +kernel

/-- The hypotheses of `C73_shows` hold of an event with a duration. -/
example : WellFormed dstEnv ⟨.event, some ⟨dayNo 2, false, none⟩, none, some 5000000, .second⟩ :=
  (validate_ok dstEnv _ ⟨fun b hb => by cases hb; unfold DT.InRange; decide, fun b hb => by cases hb⟩).1 (by decide +kernel)

end Ics
