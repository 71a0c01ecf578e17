import Verif.Proofs.Compare

/-
Lemmas about the interval queries.
-/
namespace Ics

theorem queryTuple {e : Env} {s : Span} {b en : DT} (h : e.Timed s b en) (k : Nat) :
    e.spanTuple k none s = .ok (some (e.normd k b), some (e.normd (k + 1) en)) := by
  obtain ⟨hc, hb, he, h1, h2⟩ := h
  unfold Env.spanTuple
  rw [hb, he]
  refine bind_ok_iff.2 ⟨_, normalizeOpt_some.2 ⟨h1, rfl⟩, bind_ok_iff.2 ⟨_, rfl, bind_ok_iff.2
    ⟨_, normalizeOpt_some.2 ⟨h2, rfl⟩, ?_⟩⟩⟩
  rw [if_neg hc]

theorem timed_fresh {e : Env} {s : Span} {b en : DT} {k : Nat} (h : e.Timed s b en) (hf : s.Fresh k) :
    b.Fresh k ∧ en.Fresh k := ⟨hf.1 _ h.2.1, effEnd_fresh hf h.2.2.1⟩

theorem tupleAttr_some {s : Span} {d : DT} (h : s.cls ≠ .todo) : s.tupleAttr (some d) = .ok d := by
  unfold Span.tupleAttr
  rw [if_neg h]

theorem within_normd {e : Env} {k i j l : Nat} {lo x hi : DT} (h1 : lo.Fresh k) (h2 : x.Fresh k)
    (h3 : hi.Fresh k) (hi' : k ≤ i) (hj : k ≤ j) (hl : k ≤ l) (hij : i ≠ j) (hjl : j ≠ l) :
    e.within (.ok (e.normd i lo)) (.ok (e.normd j x)) (.ok (e.normd l hi)) =
      .ok (decide (e.nsub lo x ≤ 0) && decide (e.nsub x hi < 0)) := by
  unfold Env.within Env.le Env.lt Env.cmp
  simp only [bind, Except.bind]
  rw [sub_normd h1 h2 hi' hj hij, sub_normd h2 h3 hj hl hjl]
  simp only [Except.map]
  by_cases h : e.nsub lo x ≤ 0
  · simp [h]
  · simp [h]

theorem containedIn_normd {e : Env} {k i j l m : Nat} {a b c d : DT} (h1 : a.Fresh k) (h2 : b.Fresh k)
    (h3 : c.Fresh k) (h4 : d.Fresh k) (hi : k ≤ i) (hj : k ≤ j) (hl : k ≤ l) (hm : k ≤ m) (hij : i ≠ j)
    (hlm : l ≠ m) :
    e.containedIn (.ok (e.normd i a)) (.ok (e.normd j b)) (.ok (e.normd l c)) (.ok (e.normd m d)) =
      .ok (decide (e.nsub a b ≤ 0) && decide (e.nsub c d < 0)) := by
  unfold Env.containedIn Env.le Env.lt Env.cmp
  simp only [bind, Except.bind]
  rw [sub_normd h1 h2 hi hj hij, sub_normd h3 h4 hl hm hlm]
  simp only [Except.map]
  by_cases h : e.nsub a b ≤ 0
  · simp [h]
  · simp [h]

theorem requireAll_some (r1 r2 r3 r4 : Bool) (a b c d : DT) :
    requireAll r1 r2 r3 r4 (some a, some b) (some c, some d) = .ok () := by
  simp [requireAll, requireSome, bind, Except.bind]

theorem startsWithin_eq {e : Env} {k : Nat} {s o : Span} {b en b' en' : DT} (hs : e.Timed s b en)
    (ho : e.Timed o b' en') (fs : s.Fresh k) (fo : o.Fresh k) :
    e.startsWithin k s o = .ok (decide (e.nsub b' b ≤ 0) && decide (e.nsub b en' < 0)) := by
  unfold Env.startsWithin
  rw [queryTuple hs, queryTuple ho]
  simp only [bind, Except.bind]
  rw [requireAll_some]
  dsimp only
  rw [tupleAttr_some ho.1, tupleAttr_some ho.1, tupleAttr_some hs.1]
  exact within_normd (timed_fresh ho fo).1 (timed_fresh hs fs).1 (timed_fresh ho fo).2 (by omega)
    (by omega) (by omega) (by omega) (by omega)

theorem endsWithin_eq {e : Env} {k : Nat} {s o : Span} {b en b' en' : DT} (hs : e.Timed s b en)
    (ho : e.Timed o b' en') (fs : s.Fresh k) (fo : o.Fresh k) :
    e.endsWithin k s o = .ok (decide (e.nsub b' en ≤ 0) && decide (e.nsub en en' < 0)) := by
  unfold Env.endsWithin
  rw [queryTuple hs, queryTuple ho]
  simp only [bind, Except.bind]
  rw [requireAll_some]
  dsimp only
  rw [tupleAttr_some ho.1, tupleAttr_some ho.1, tupleAttr_some hs.1]
  exact within_normd (timed_fresh ho fo).1 (timed_fresh hs fs).2 (timed_fresh ho fo).2 (by omega)
    (by omega) (by omega) (by omega) (by omega)

theorem orElse_ok (a b : Bool) : orElse (.ok a) (.ok b) = .ok (a || b) := by
  cases a <;> rfl

theorem intersects_eq {e : Env} {k : Nat} {s o : Span} {b en b' en' : DT} (hs : e.Timed s b en)
    (ho : e.Timed o b' en') (fs : s.Fresh k) (fo : o.Fresh k) :
    e.intersects k s o = .ok ((decide (e.nsub b' b ≤ 0) && decide (e.nsub b en' < 0)) ||
      ((decide (e.nsub b' en ≤ 0) && decide (e.nsub en en' < 0)) ||
      ((decide (e.nsub b b' ≤ 0) && decide (e.nsub b' en < 0)) ||
      (decide (e.nsub b en' ≤ 0) && decide (e.nsub en' en < 0))))) := by
  unfold Env.intersects
  rw [queryTuple hs, queryTuple ho]
  simp only [bind, Except.bind]
  rw [requireAll_some]
  dsimp only
  rw [tupleAttr_some ho.1, tupleAttr_some ho.1, tupleAttr_some hs.1, tupleAttr_some hs.1]
  obtain ⟨h1, h2⟩ := timed_fresh hs fs
  obtain ⟨h3, h4⟩ := timed_fresh ho fo
  rw [within_normd h3 h1 h4 (by omega) (by omega) (by omega) (by omega) (by omega),
    within_normd h3 h2 h4 (by omega) (by omega) (by omega) (by omega) (by omega),
    within_normd h1 h3 h2 (by omega) (by omega) (by omega) (by omega) (by omega),
    within_normd h1 h4 h2 (by omega) (by omega) (by omega) (by omega) (by omega),
    orElse_ok, orElse_ok, orElse_ok]

theorem includes_eq {e : Env} {k : Nat} {s o : Span} {b en b' en' : DT} (hs : e.Timed s b en)
    (ho : e.Timed o b' en') (fs : s.Fresh k) (fo : o.Fresh k) :
    e.includes k s o = .ok (decide (e.nsub b b' ≤ 0) && decide (e.nsub en' en < 0)) := by
  unfold Env.includes
  rw [queryTuple hs, queryTuple ho]
  simp only [bind, Except.bind]
  rw [requireAll_some]
  dsimp only
  rw [tupleAttr_some ho.1, tupleAttr_some ho.1, tupleAttr_some hs.1, tupleAttr_some hs.1]
  obtain ⟨h1, h2⟩ := timed_fresh hs fs
  obtain ⟨h3, h4⟩ := timed_fresh ho fo
  exact containedIn_normd h1 h3 h4 h2 (by omega) (by omega) (by omega) (by omega) (by omega) (by omega)

theorem isIncludedIn_eq {e : Env} {k : Nat} {s o : Span} {b en b' en' : DT} (hs : e.Timed s b en)
    (ho : e.Timed o b' en') (fs : s.Fresh k) (fo : o.Fresh k) :
    e.isIncludedIn k s o = .ok (decide (e.nsub b' b ≤ 0) && decide (e.nsub en en' < 0)) := by
  unfold Env.isIncludedIn
  rw [queryTuple hs, queryTuple ho]
  simp only [bind, Except.bind]
  rw [requireAll_some]
  dsimp only
  rw [tupleAttr_some ho.1, tupleAttr_some ho.1, tupleAttr_some hs.1, tupleAttr_some hs.1]
  obtain ⟨h1, h2⟩ := timed_fresh hs fs
  obtain ⟨h3, h4⟩ := timed_fresh ho fo
  exact containedIn_normd h3 h1 h2 h4 (by omega) (by omega) (by omega) (by omega) (by omega) (by omega)

theorem includesInstant_eq {e : Env} {k : Nat} {s : Span} {b en t : DT} (hs : e.Timed s b en)
    (ht : e.Convertible t) (fs : s.Fresh k) (ft : t.Fresh k) :
    e.includesInstant k s t = .ok (decide (e.nsub b t ≤ 0) && decide (e.nsub t en < 0)) := by
  unfold Env.includesInstant
  rw [queryTuple hs, normalizeDT_ok.2 ⟨ht, rfl⟩]
  simp only [bind, Except.bind, requireSome, Option.isNone_some, Bool.and_false, Bool.false_eq_true,
    if_false]
  rw [tupleAttr_some hs.1, tupleAttr_some hs.1]
  obtain ⟨h1, h2⟩ := timed_fresh hs fs
  exact within_normd h1 ft h2 (by omega) (by omega) (by omega) (by omega) (by omega)

theorem localize_instant {e : Env} (hl : e.Lawful (.loc 0)) (d : DT) :
    e.instant (e.localize d) = e.instant d := by
  rcases d with ⟨w, f, _ | t⟩
  · exact hl _
  · rfl

theorem tidy_clear {e : Env} {d : DT} (h : e.Unambiguous d) : e.clear d = true := by
  unfold Env.Unambiguous at h
  unfold Env.clear
  split
  · rfl
  · rename_i t ht
    have := h t ht
    cases (e.localize d).fold <;> simp [this]

theorem tidy_cmp {e : Env} (hl : e.Lawful (.loc 0)) {T : DT → Prop} (ht : e.Tidy T) {x y : DT}
    (hx : T x) (hy : T y) :
    (e.nsub x y < 0 ↔ e.instant x < e.instant y) ∧ (e.neq x y = true ↔ e.instant x = e.instant y) := by
  unfold Env.nsub Env.neq
  by_cases h : x.tz = y.tz ∧ x.tz ≠ none
  · rw [if_pos h, if_pos h]
    obtain ⟨h1, h2⟩ := ht.2 x y hx hy h.1 h.2
    refine ⟨?_, ?_⟩
    · rw [← h1]; omega
    · rw [decide_eq_true_iff]; exact h2
  · rw [if_neg h, if_neg h, tidy_clear (ht.1 x hx), tidy_clear (ht.1 y hy), localize_instant hl,
      localize_instant hl]
    refine ⟨by omega, by simp⟩

theorem tidy_lt {e : Env} (hl : e.Lawful (.loc 0)) {T : DT → Prop} (ht : e.Tidy T) {x y : DT}
    (hx : T x) (hy : T y) : (e.nsub x y < 0) = (e.instant x < e.instant y) :=
  propext (tidy_cmp hl ht hx hy).1

theorem tidy_le {e : Env} (hl : e.Lawful (.loc 0)) {T : DT → Prop} (ht : e.Tidy T) {x y : DT}
    (hx : T x) (hy : T y) : (e.nsub x y ≤ 0) = (e.instant x ≤ e.instant y) := by
  have h := (tidy_cmp hl ht hy hx).1
  have h2 := nsub_anti e x y
  rw [eq_iff_iff]
  omega

end Ics
