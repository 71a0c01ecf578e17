import Verif.Model.Query
import Verif.Props.Queries

/-
C77: what the interval queries of events mean, for events, spans and instants.
-/
namespace Ics

/-- The event or span goes from `b` to `en`. -/
def Env.Lasts (e : Env) (k : Nat) (b en : DT) : Operand → Prop
  | .entry x => e.Timed x.timespan b en ∧ x.timespan.Fresh k
  | .span s => e.Timed s b en ∧ s.Fresh k
  | _ => False

theorem lasts_span {e : Env} {k : Nat} {b en : DT} {o : Operand} (h : e.Lasts k b en o) :
    ∃ s, timespanIfEntry o = .span s ∧ e.Timed s b en ∧ s.Fresh k := by
  cases o with
  | entry x => exact ⟨_, rfl, h⟩
  | span s => exact ⟨_, rfl, h⟩
  | instant => exact h.elim
  | none_ => exact h.elim

/-- C77: with instants in mind (for tidy times).  `starts_within`: the begin is an instant of the other; `ends_within`: the
end is an instant of the other; `includes`: the other begins no earlier and ends earlier; `is_included_in`: the other way
round; `intersects`: the closed intervals have an instant in common, unless the ends are the same and one of them is empty.
Missing: todos (`C77_todo_fails`), and times in hours that occur twice (`C31_instant_fails`). -/
theorem C77_meaning_partial (e : Env) (hl : e.Lawful (.loc 0)) (T : DT → Prop) (ht : e.Tidy T) (k : Nat)
    (x : Entry) (o : Operand) (b en b' en' : DT) (hx : e.Lasts k b en (.entry x)) (ho : e.Lasts k b' en' o)
    (t1 : T b) (t2 : T en) (t3 : T b') (t4 : T en') :
    e.entryStartsWithin k x o =
      .ok (decide (e.instant b' ≤ e.instant b ∧ e.instant b < e.instant en')) ∧
    e.entryEndsWithin k x o =
      .ok (decide (e.instant b' ≤ e.instant en ∧ e.instant en < e.instant en')) ∧
    e.entryIncludes k x o =
      .ok (decide (e.instant b ≤ e.instant b' ∧ e.instant en' < e.instant en)) ∧
    e.entryIsIncludedIn k x o =
      .ok (decide (e.instant b' ≤ e.instant b ∧ e.instant en < e.instant en')) ∧
    (e.instant b ≤ e.instant en → e.instant b' ≤ e.instant en' →
      e.entryIntersects k x o = .ok (decide (e.instant b ≤ e.instant en' ∧ e.instant b' ≤ e.instant en ∧
        ¬ (e.instant en = e.instant en' ∧ (e.instant b = e.instant en ∨ e.instant b' = e.instant en'))))) := by
  obtain ⟨s, hs, h1, h2⟩ := lasts_span ho
  obtain ⟨g1, g2⟩ := hx
  unfold Env.entryStartsWithin Env.entryEndsWithin Env.entryIncludes Env.entryIsIncludedIn Env.entryIntersects
  simp only [hs, Env.withSpan]
  refine ⟨?_, ?_, ?_, ?_, fun n1 n2 => C30_exact_partial e hl T ht k _ s b en b' en' g1 h1 g2 h2 t1 t2 t3 t4 n1 n2⟩
  · rw [startsWithin_eq g1 h1 g2 h2]
    simp only [tidy_lt hl ht t1 t4, tidy_le hl ht t3 t1, Bool.decide_and]
  · rw [endsWithin_eq g1 h1 g2 h2]
    simp only [tidy_lt hl ht t2 t4, tidy_le hl ht t3 t2, Bool.decide_and]
  · rw [includes_eq g1 h1 g2 h2]
    simp only [tidy_lt hl ht t4 t2, tidy_le hl ht t1 t3, Bool.decide_and]
  · rw [isIncludedIn_eq g1 h1 g2 h2]
    simp only [tidy_lt hl ht t2 t4, tidy_le hl ht t3 t1, Bool.decide_and]

/-- An event in the evening before summer time begins. -/
def exEvening : Entry := ⟨.event, exSpan, some "Party".toList⟩

example : dstEnv.entryStartsWithin 0 exEvening (.entry exEvening) = .ok true ∧
    dstEnv.entryEndsWithin 0 exEvening (.span exSpan) = .ok false ∧
    dstEnv.entryIntersects 0 exEvening (.entry exEvening) = .ok true := by decide +kernel

/-- C77 for instants: `includes(t)` says whether `t` is an instant of the event (for tidy times). -/
theorem C77_instant_partial (e : Env) (hl : e.Lawful (.loc 0)) (T : DT → Prop) (ht : e.Tidy T) (k : Nat)
    (x : Entry) (b en t : DT) (hx : e.Lasts k b en (.entry x)) (hc : e.Convertible t) (ft : t.Fresh k)
    (t1 : T b) (t2 : T en) (t3 : T t) :
    e.entryIncludes k x (.instant t) = .ok true ↔ During (e.instant b) (e.instant en) (e.instant t) :=
  C31_instant_partial e hl T ht k x.timespan b en t hx.1 hc hx.2 ft t1 t2 t3

/-- The other queries do not work for instants, and none works for `None`: `AttributeError`. -/
theorem C77_no_span (e : Env) (k : Nat) (x : Entry) (b en : DT) (hx : e.Lasts k b en (.entry x)) (o : Operand)
    (ho : o = .none_ ∨ ∃ t, o = .instant t) :
    e.entryStartsWithin k x o = .error .attributeError ∧ e.entryEndsWithin k x o = .error .attributeError ∧
    e.entryIntersects k x o = .error .attributeError ∧ e.entryIsIncludedIn k x o = .error .attributeError ∧
    (o = .none_ → e.entryIncludes k x o = .error .attributeError) := by
  have hq := queryTuple hx.1 (k := k)
  obtain rfl | ⟨t, rfl⟩ := ho
  · simp only [Env.entryStartsWithin, Env.entryEndsWithin, Env.entryIntersects, Env.entryIsIncludedIn, Env.entryIncludes,
      timespanIfEntry, Env.withSpan, hq, bind, Except.bind, and_self, implies_true]
  · refine ⟨?_, ?_, ?_, ?_, nofun⟩ <;>
      simp only [Env.entryStartsWithin, Env.entryEndsWithin, Env.entryIntersects, Env.entryIsIncludedIn,
      timespanIfEntry, Env.withSpan, hq, bind, Except.bind]

example : dstEnv.entryIncludes 0 exEvening (.instant ⟨dayNo 737511 + hours 20, false, none⟩) = .ok true ∧
    dstEnv.entryIntersects 0 exEvening (.instant ⟨dayNo 737511 + hours 20, false, none⟩) = .error .attributeError := by
  decide +kernel

/-- C77: the times of the entry itself are computed first: if this raises, so does the query, whatever it is asked about. -/
theorem C77_own_first (e : Env) (k : Nat) (x : Entry) (err : PyErr) (h : e.spanTuple k none x.timespan = .error err)
    (o : Operand) :
    e.entryStartsWithin k x o = .error err ∧ e.entryEndsWithin k x o = .error err ∧
    e.entryIntersects k x o = .error err ∧ e.entryIsIncludedIn k x o = .error err ∧ e.entryIncludes k x o = .error err := by
  cases o <;> simp only [Env.entryStartsWithin, Env.entryEndsWithin, Env.entryIntersects, Env.entryIsIncludedIn,
    Env.entryIncludes, timespanIfEntry, Env.withSpan, Env.startsWithin, Env.endsWithin, Env.intersects, Env.includes,
    Env.isIncludedIn, Env.includesInstant, h, bind, Except.bind, and_self]
/-- An event that begins on the last day and lasts a day. -/
example : dstEnv.spanTuple 0 none ⟨.event, some ⟨dayNo 3652058, false, none⟩, none, some (2 * dayUs), .day⟩ = .error .overflowError := by
  decide +kernel

/-- An event, its time span and a copy of it are the same for the queries: only the span matters.  And `includes` and
`is_included_in` are converse, `intersects` is symmetric. -/
theorem C77_span (e : Env) (k : Nat) (x y : Entry) (o : Operand) :
    (y.timespan = x.timespan → e.entryStartsWithin k y o = e.entryStartsWithin k x o ∧
      e.entryEndsWithin k y o = e.entryEndsWithin k x o ∧ e.entryIntersects k y o = e.entryIntersects k x o ∧
      e.entryIncludes k y o = e.entryIncludes k x o ∧ e.entryIsIncludedIn k y o = e.entryIsIncludedIn k x o) ∧
    (e.entryStartsWithin k x (.entry y) = e.entryStartsWithin k x (.span y.timespan) ∧
      e.entryEndsWithin k x (.entry y) = e.entryEndsWithin k x (.span y.timespan) ∧
      e.entryIntersects k x (.entry y) = e.entryIntersects k x (.span y.timespan) ∧
      e.entryIncludes k x (.entry y) = e.entryIncludes k x (.span y.timespan) ∧
      e.entryIsIncludedIn k x (.entry y) = e.entryIsIncludedIn k x (.span y.timespan)) := by
  refine ⟨?_, rfl, rfl, rfl, rfl, rfl⟩
  intro h
  simp only [Env.entryStartsWithin, Env.entryEndsWithin, Env.entryIntersects, Env.entryIncludes, Env.entryIsIncludedIn, h,
    and_self]

/-- `includes` and `is_included_in` are converse, `intersects` is symmetric, in all cases. -/
theorem C77_converse (e : Env) (k j : Nat) (x y : Entry) (b en b' en' : DT) (hx : e.Timed x.timespan b en)
    (hy : e.Timed y.timespan b' en') (fx : x.timespan.Fresh k) (fy : y.timespan.Fresh k) (fx' : x.timespan.Fresh j)
    (fy' : y.timespan.Fresh j) :
    e.entryIncludes k x (.entry y) = e.entryIsIncludedIn j y (.entry x) ∧
    e.entryIntersects k x (.entry y) = e.entryIntersects j y (.entry x) :=
  ⟨C31_swap e k j _ _ b en b' en' hx hy fx fy fx' fy', C30_symm e k j _ _ b en b' en' hx hy fx fy fx' fy'⟩

/-- C77 is false for todos with begin and due: all queries raise `AttributeError`, and so do those of events about
them. -/
theorem C77_todo_fails (e : Env) (k : Nat) (x y : Entry) (b en b' en' t : DT) (hc : y.timespan.cls = .todo)
    (hy : e.Timed { y.timespan with cls := .plain } b' en') (hx : e.Timed x.timespan b en)
    (hd : y.timespan.end? ≠ none ∨ y.timespan.dur? ≠ none) (ht : e.Convertible t) :
    e.entryStartsWithin k y (.entry x) = .error .attributeError ∧ e.entryEndsWithin k y (.entry x) = .error .attributeError ∧
    e.entryIntersects k y (.entry x) = .error .attributeError ∧ e.entryIncludes k y (.entry x) = .error .attributeError ∧
    e.entryIsIncludedIn k y (.entry x) = .error .attributeError ∧
    e.entryIncludes k y (.instant t) = .error .attributeError ∧
    e.entryStartsWithin k x (.entry y) = .error .attributeError ∧ e.entryEndsWithin k x (.entry y) = .error .attributeError ∧
    e.entryIntersects k x (.entry y) = .error .attributeError ∧ e.entryIncludes k x (.entry y) = .error .attributeError ∧
    e.entryIsIncludedIn k x (.entry y) = .error .attributeError :=
  C32_fails e k y.timespan x.timespan b' en' b en t hc hy hx hd ht

example : dstEnv.mkSpan { exSpan with cls := .todo } = .ok { exSpan with cls := .todo } ∧
    dstEnv.entryIntersects 0 exEvening (.entry ⟨.todo, { exSpan with cls := .todo }, none⟩) = .error .attributeError := by
  decide +kernel

end Ics
