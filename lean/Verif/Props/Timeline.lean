import Verif.Proofs.Timeline
import Verif.Props.Normalize

/-
C33-C35, C53: the timeline.
-/
namespace Ics

/-! ### C33: the timeline -/

/-- C33, which events: exactly those with a begin, each as often as it is in the calendar; for every
calendar, with and without normalization. -/
theorem C33_exactly (e : Env) (k : Nat) (n : Option Normalization) (evs r : List TEvent)
    (hw : ∀ x ∈ evs, x.entry.timespan.cls = .event ∧ WellFormed e x.entry.timespan)
    (h : e.timeline k n evs = .ok r) :
    r.Perm (evs.filter fun x => x.entry.timespan.begin?.isSome) := by
  obtain ⟨its, hi, h⟩ := bind_ok_iff.1 h
  injection h with h
  subst h
  obtain ⟨l, hl, hp⟩ := iterator_perm hi
  obtain ⟨h1, -⟩ := items_ok evs l hl
  refine (hp.map _).trans ?_
  rw [h1]
  refine List.Perm.of_eq (List.filter_congr ?_)
  intro x hx
  obtain ⟨hc, hw⟩ := hw x hx
  unfold Span.truthy
  cases hb : x.entry.timespan.begin? with
  | some b => rfl
  | none =>
    cases he : x.entry.timespan.end? with
    | none => rfl
    | some en => exact absurd hb (hw.eventEnd hc (by rw [he]; simp))

/-- The times paired with the events are their (normalized) times. -/
theorem C33_spans (e : Env) (k : Nat) (n : Option Normalization) (evs : List TEvent) (its : List TItem)
    (h : e.iterator k n evs = .ok its) :
    ∀ it ∈ its, it.2 ∈ evs ∧ e.timelineSpan n it.2.entry.timespan = .ok it.1 := by
  obtain ⟨l, hl, hp⟩ := iterator_perm h
  obtain ⟨h1, h2⟩ := items_ok evs l hl
  intro it hit
  have hm := hp.subset hit
  refine ⟨?_, h2 it hm⟩
  have : it.2 ∈ l.map Prod.snd := List.mem_map_of_mem hm
  rw [h1] at this
  exact (List.mem_filter.1 this).1

theorem itemLt_ok {e : Env} {k : Nat} {a b : TItem} {p q p' q' : DT × DT} (fa : a.1.Fresh k)
    (fb : b.1.Fresh k) (fa' : a.2.entry.timespan.Fresh k) (fb' : b.2.entry.timespan.Fresh k)
    (hp : e.Comparable a.1 p) (hq : e.Comparable b.1 q) (hp' : e.Comparable a.2.entry.timespan p')
    (hq' : e.Comparable b.2.entry.timespan q') : ∃ t, e.itemLt k a b = .ok t := by
  unfold Env.itemLt
  split
  · split
    · exact ⟨_, rfl⟩
    · unfold Env.entryLt
      exact ⟨_, entryOp_eq (op := e.lt) (f := fun x => decide (x < 0)) (fun _ _ => rfl) fa' fb' hp' hq'⟩
  · exact ⟨_, spanLt_eq fa fb hp hq⟩

/-- C33: without normalization, the iteration raises nothing if the times can be compared. -/
theorem C33_no_error (e : Env) (k : Nat) (evs : List TEvent)
    (hs : ∀ x ∈ evs, x.entry.timespan.Fresh k ∧ e.Sortable x.entry.timespan) :
    ∃ r, e.timeline k none evs = .ok r := by
  have hi : ∃ l, e.items none evs = .ok l := by
    clear hs
    induction evs with
    | nil => exact ⟨_, rfl⟩
    | cons x xs ih =>
      obtain ⟨l, hl⟩ := ih
      exact ⟨_, bind_ok_iff.2 ⟨_, rfl, bind_ok_iff.2 ⟨l, hl, rfl⟩⟩⟩
  obtain ⟨l, hl⟩ := hi
  obtain ⟨h1, h2⟩ := items_ok evs l hl
  have hA : LtOk (e.itemLt k) l := by
    have key : ∀ a ∈ l, a.1 = a.2.entry.timespan ∧ a.2.entry.timespan.Fresh k ∧
        ∃ p, e.Comparable a.2.entry.timespan p := by
      intro a ha
      have hm : a.2 ∈ evs := by
        have : a.2 ∈ l.map Prod.snd := List.mem_map_of_mem ha
        rw [h1] at this
        exact (List.mem_filter.1 this).1
      have h3 := h2 a ha
      injection h3 with h3
      exact ⟨h3.symm, (hs _ hm).1, sortable_comparable (hs _ hm).2⟩
    intro a ha b hb
    obtain ⟨a1, a2, p, a3⟩ := key a ha
    obtain ⟨b1, b2, q, b3⟩ := key b hb
    exact itemLt_ok (by rw [a1]; exact a2) (by rw [b1]; exact b2) a2 b2 (by rw [a1]; exact a3)
      (by rw [b1]; exact b3) a3 b3
  obtain ⟨hp, hh⟩ := heapify_total l hA
  obtain ⟨r, hr⟩ := popAll_total hA hp.length hp (fun x hx => (heapify_perm hh).subset hx)
  exact ⟨_, bind_ok_iff.2 ⟨r, bind_ok_iff.2 ⟨l, hl, bind_ok_iff.2 ⟨hp, hh, hr⟩⟩, rfl⟩⟩

/-- The place of an item in the order. -/
def Env.rank (e : Env) (it : TItem) : Int × Int :=
  match e.keyOf it.1 with
  | .ok p => (e.instant p.1, e.instant p.2)
  | .error _ => (0, 0)

theorem rank_eq {e : Env} {it : TItem} {p : DT × DT} (h : e.Comparable it.1 p) :
    e.rank it = (e.instant p.1, e.instant p.2) := by
  unfold Env.rank
  rw [h.1]

theorem timed_sortable {e : Env} {s : Span} {b en : DT} (h : e.Timed s b en) : e.Sortable s := by
  obtain ⟨-, h1, h2, h3, h4⟩ := h
  refine ⟨⟨_, h2⟩, ?_⟩
  rintro d (rfl | ⟨en', he, rfl⟩)
  · rw [h1]; exact h3
  · rw [h2] at he; injection he with he; subst he; exact h4

theorem timed_comparable {e : Env} {s : Span} {b en : DT} (h : e.Timed s b en) :
    e.Comparable s (b, en) := by
  obtain ⟨hc, h1, h2, h3, h4⟩ := h
  refine ⟨?_, h3, h4⟩
  unfold Env.keyOf
  rw [h2]
  dsimp only
  rw [if_neg hc, h1]
  rfl

theorem timed_times {e : Env} {s : Span} {b en : DT} {T : DT → Prop} (h : e.Timed s b en) (hb : T b)
    (he : T en) : ∀ d, e.timesOf s d → T d := by
  obtain ⟨-, h1, h2, -, -⟩ := h
  rintro d (rfl | ⟨en', hen, rfl⟩)
  · rw [h1]; exact hb
  · rw [h2] at hen; injection hen with hen; subst hen; exact he

theorem timed_takes {e : Env} {it : TItem} {b en : DT} {x y : Int} (h : e.Timed it.1 b en)
    (ht : e.Takes it x y) : x = e.instant b ∧ y = e.instant en := by
  obtain ⟨-, h1, h2, -, -⟩ := h
  obtain ⟨b', en', g1, g2, rfl, rfl⟩ := ht
  rw [h1] at g1; injection g1 with g1; subst g1
  rw [h2] at g2; injection g2 with g2; injection g2 with g2; subst g2
  exact ⟨rfl, rfl⟩

/-- C33, order by begin (for tidy times, see `C27_chronological_partial`): every event begins no
earlier than the ones before it.  Missing: times in gaps and overlaps of a zone, see
`C33_fails`. -/
theorem C33_begin_partial (e : Env) (hl : e.Lawful (.loc 0)) (T : DT → Prop) (ht : e.Tidy T)
    (hn : e.NaiveClear T) (k : Nat) (n : Option Normalization) (evs : List TEvent) (its : List TItem)
    (h : e.iterator k n evs = .ok its) (hs : e.AllTimed T k its) :
    its.Pairwise fun a b => ∀ x1 y1 x2 y2, e.Takes a x1 y1 → e.Takes b x2 y2 → x1 ≤ x2 := by
  obtain ⟨l, hi, hp⟩ := iterator_perm h
  have ha : Agrees (e.itemLt k) (fun it => it ∈ its ∧ (n = none → it.1 = it.2.entry.timespan))
      (fun a b => (e.rank a).1 ≤ (e.rank b).1) := by
    refine ⟨fun a => Int.le_refl _, fun a b c => Int.le_trans, ?_, ?_⟩
    all_goals
      rintro a b ⟨ma, na⟩ ⟨mb, nb⟩ hlt
      obtain ⟨fa, b1, en1, ta, tb1, te1⟩ := hs a ma
      obtain ⟨fb, b2, en2, tb, tb2, te2⟩ := hs b mb
      rw [rank_eq (timed_comparable ta), rank_eq (timed_comparable tb)]
      unfold Env.itemLt at hlt
      split at hlt
      · rename_i heq
        have := (spanEq_key ht hn (timed_comparable ta) (timed_comparable tb) (timed_times ta tb1 te1)
          (timed_times tb tb2 te2) heq).1 ta.1
        dsimp only at this ⊢
        omega
      · rw [spanLt_eq fa fb (timed_comparable ta) (timed_comparable tb)] at hlt
        rw [nop_tidy hl ht tb1 te1 tb2 te2] at hlt
        simp at hlt
        dsimp only
        omega
  have hsorted := iterator_sorted ha hi (fun it hit => ⟨hp.symm.subset hit, fun hnn => by
    have h2 := (C33_spans e k n evs its h it (hp.symm.subset hit)).2
    subst hnn; injection h2 with h2; exact h2.symm⟩) h
  refine List.Pairwise.imp_of_mem ?_ hsorted
  intro a b ma mb hab x1 y1 x2 y2 k1 k2
  obtain ⟨-, b1, en1, ta, -⟩ := hs a ma
  obtain ⟨-, b2, en2, tb, -⟩ := hs b mb
  rw [rank_eq (timed_comparable ta), rank_eq (timed_comparable tb)] at hab
  obtain ⟨rfl, -⟩ := timed_takes ta k1
  obtain ⟨rfl, -⟩ := timed_takes tb k2
  exact hab

/-- C33, order by begin, then end (for tidy times).  Two events that begin at the same instant in
different zones, without explicit end, must not be equal in all attributes besides time and summary
(with normalization: their begins must be in the same zone).  Missing: that case, see `C33_fails`, and
times in gaps and overlaps. -/
theorem C33_sorted_partial (e : Env) (hl : e.Lawful (.loc 0)) (T : DT → Prop) (ht : e.Tidy T)
    (hn : e.NaiveClear T) (k : Nat) (n : Option Normalization) (evs : List TEvent) (its : List TItem)
    (h : e.iterator k n evs = .ok its) (hs : e.AllTimed T k its)
    (hz : ∀ a ∈ its, ∀ b ∈ its, ∀ x y, a.1.end? = none → a.1.begin? = some x → b.1.begin? = some y →
      e.instant x = e.instant y → x.tz = y.tz ∨ (n = none ∧ a.2.rest ≠ b.2.rest)) :
    its.Pairwise fun a b => ∀ x1 y1 x2 y2, e.Takes a x1 y1 → e.Takes b x2 y2 →
      x1 < x2 ∨ (x1 = x2 ∧ y1 ≤ y2) := by
  obtain ⟨l, hi, hp⟩ := iterator_perm h
  have ha : Agrees (e.itemLt k) (fun it => it ∈ its ∧ (n = none → it.1 = it.2.entry.timespan))
      (fun a b => (e.rank a).1 < (e.rank b).1 ∨ ((e.rank a).1 = (e.rank b).1 ∧
        (e.rank a).2 ≤ (e.rank b).2)) := by
    refine ⟨fun a => by omega, fun a b c => by omega, ?_, ?_⟩
    all_goals
      rintro a b ⟨ma, na⟩ ⟨mb, nb⟩ hlt
      obtain ⟨fa, b1, en1, ta, tb1, te1⟩ := hs a ma
      obtain ⟨fb, b2, en2, tb, tb2, te2⟩ := hs b mb
      have ca := timed_comparable ta
      have cb := timed_comparable tb
      rw [rank_eq ca, rank_eq cb]
      unfold Env.itemLt at hlt
      split at hlt
      · rename_i heq
        obtain ⟨g1, g2⟩ := spanEq_key ht hn ca cb (timed_times ta tb1 te1) (timed_times tb tb2 te2) heq
        by_cases hsame : n = none ∧ a.2.rest ≠ b.2.rest
        · have hne : e.eventEq a.2 b.2 = false := by
            unfold Env.eventEq
            rw [decide_eq_false hsame.2, Bool.and_false]
          rw [hne] at hlt
          simp only [Bool.false_eq_true, if_false] at hlt
          unfold Env.entryLt at hlt
          rw [entryOp_eq (op := e.lt) (f := fun x => decide (x < 0)) (fun _ _ => rfl)
            (by rw [← na hsame.1]; exact fa) (by rw [← nb hsame.1]; exact fb)
            (by rw [← na hsame.1]; exact ca) (by rw [← nb hsame.1]; exact cb),
            nop_tidy hl ht tb1 te1 tb2 te2] at hlt
          simp at hlt
          dsimp only
          omega
        · have := g2 (fun hend x y hx hy => by
            rcases hz a ma b mb x y hend hx hy (by
              have hx' := ta.2.1; rw [hx] at hx'; injection hx' with hx'; subst hx'
              have hy' := tb.2.1; rw [hy] at hy'; injection hy' with hy'; subst hy'
              exact g1 ta.1) with h | h
            · exact h
            · exact absurd h hsame)
          dsimp only at this ⊢
          omega
      · rw [spanLt_eq fa fb ca cb] at hlt
        rw [nop_tidy hl ht tb1 te1 tb2 te2] at hlt
        simp at hlt
        dsimp only
        omega
  have hsorted := iterator_sorted ha hi (fun it hit => ⟨hp.symm.subset hit, fun hnn => by
    have h2 := (C33_spans e k n evs its h it (hp.symm.subset hit)).2
    subst hnn; injection h2 with h2; exact h2.symm⟩) h
  refine List.Pairwise.imp_of_mem ?_ hsorted
  intro a b ma mb hab x1 y1 x2 y2 k1 k2
  obtain ⟨-, b1, en1, ta, -⟩ := hs a ma
  obtain ⟨-, b2, en2, tb, -⟩ := hs b mb
  rw [rank_eq (timed_comparable ta), rank_eq (timed_comparable tb)] at hab
  obtain ⟨rfl, rfl⟩ := timed_takes ta k1
  obtain ⟨rfl, rfl⟩ := timed_takes tb k2
  exact hab

/-- An event for examples: 09:00-10:00 in local time. -/
def exEvent1 : TEvent := ⟨⟨.event, exNaive, some "a".toList⟩, 1⟩

/-- An event for examples: from 10:00 in Berlin. -/
def exEvent2 : TEvent := ⟨⟨.event, exSpan, none⟩, 2⟩

/-- An event without begin for examples. -/
def exEvent3 : TEvent := ⟨⟨.event, ⟨.event, none, none, none, .second⟩, none⟩, 3⟩

example : dstEnv.timeline 0 none [exEvent3, exEvent2, exEvent1, exEvent2] =
    .ok [exEvent1, exEvent2, exEvent2] := by decide +kernel

/-- The times of the examples. -/
def exTimes (d : DT) : Prop :=
  d ∈ [⟨dayNo 737511 + hours 9, false, none⟩, ⟨dayNo 737511 + hours 10, false, none⟩,
    ⟨dayNo 737511 + hours 10, false, some (.zone 1)⟩, ⟨dayNo 737512 + hours 12, false, some (.zone 1)⟩]

theorem exTimes_tidy : dstEnv.Tidy exTimes ∧ dstEnv.NaiveClear exTimes := by
  refine ⟨⟨?_, ?_⟩, fun _ _ _ => rfl⟩
  · intro d hd
    simp only [exTimes, List.mem_cons, List.not_mem_nil, or_false] at hd
    rcases hd with rfl | rfl | rfl | rfl
    all_goals
      intro t ht
      cases ht
      decide +kernel
  · intro x y hx hy
    simp only [exTimes, List.mem_cons, List.not_mem_nil, or_false] at hx hy
    rcases hx with rfl | rfl | rfl | rfl <;> rcases hy with rfl | rfl | rfl | rfl <;>
      decide +kernel

theorem exNaive_timed : dstEnv.Timed exNaive ⟨dayNo 737511 + hours 9, false, none⟩
    ⟨dayNo 737511 + hours 10, false, none⟩ := by
  refine ⟨by decide, rfl, by decide +kernel, ?_, ?_⟩ <;>
    (intro _; refine ⟨?_, ?_, ?_⟩ <;> decide +kernel)

/-- The hypotheses of C33 hold for the items of the examples. -/
theorem exItems_timed : dstEnv.AllTimed exTimes 0 [(exNaive, exEvent1), (exSpan, exEvent2)] := by
  intro it hit
  simp only [List.mem_cons, List.not_mem_nil, or_false] at hit
  rcases hit with rfl | rfl
  · refine ⟨⟨?_, ?_⟩, _, _, exNaive_timed, ?_, ?_⟩
    · intro b hb i hi; cases hb; cases hi
    · intro b hb; cases hb
    · simp [exTimes]
    · simp [exTimes]
  · refine ⟨⟨?_, ?_⟩, _, _, exSpan_timed, ?_, ?_⟩
    · intro b hb i hi; cases hb; cases hi
    · intro b hb i hi; cases hb; cases hi
    · simp [exTimes]
    · simp [exTimes]

example : dstEnv.iterator 0 none [exEvent2, exEvent3, exEvent1] =
    .ok [(exNaive, exEvent1), (exSpan, exEvent2)] := by decide +kernel

/-- C33 is false for two equal events that begin at the same instant in different zones and last as
long by the wall clock: the one ending later can come first. -/
theorem C33_fails : ∃ (x y : TEvent) (b1 e1 b2 e2 : Int),
    dstEnv.mkSpan x.entry.timespan = .ok x.entry.timespan ∧
    dstEnv.mkSpan y.entry.timespan = .ok y.entry.timespan ∧
    dstEnv.iterator 0 none [y, x] = .ok [(x.entry.timespan, x), (y.entry.timespan, y)] ∧
    dstEnv.Takes (x.entry.timespan, x) b1 e1 ∧ dstEnv.Takes (y.entry.timespan, y) b2 e2 ∧
    b1 = b2 ∧ e2 < e1 := by
  refine ⟨⟨⟨.event, ⟨.event, some ⟨dayNo 737511 + hours 11, false, some (.zone 0)⟩, none,
    some (hours 24), .second⟩, none⟩, 0⟩,
    ⟨⟨.event, ⟨.event, some ⟨dayNo 737511 + hours 12, false, some (.zone 1)⟩, none,
    some (hours 24), .second⟩, none⟩, 0⟩, _, _, _, _, by decide +kernel, by decide +kernel,
    by decide +kernel, ⟨_, ⟨dayNo 737512 + hours 11, false, some (.zone 0)⟩, rfl, by decide +kernel, rfl, rfl⟩,
    ⟨_, ⟨dayNo 737512 + hours 12, false, some (.zone 1)⟩, rfl, by decide +kernel, rfl, rfl⟩,
    by decide +kernel, by decide +kernel⟩

/-- C33 is false for a timeline with a normalization that treats floating times, if the calendar
contains an all-day event: the iteration raises `ValueError`. -/
theorem C33_all_day_fails (e : Env) (k : Nat) (n : Normalization) (hn : n.floating ≠ .ignore)
    (evs : List TEvent) (x : TEvent) (hx : x ∈ evs) (hw : WellFormed e x.entry.timespan)
    (hd : x.entry.timespan.prec = .day) :
    ¬ ∃ r, e.timeline k (some n) evs = .ok r := by
  rintro ⟨r, h⟩
  obtain ⟨its, hi, -⟩ := bind_ok_iff.1 h
  obtain ⟨l, hl, -⟩ := iterator_perm hi
  have key : ∃ s, e.timelineSpan (some n) x.entry.timespan = .ok s := by
    clear hi h
    induction evs generalizing l with
    | nil => cases hx
    | cons y ys ih =>
      obtain ⟨s, hs, hl⟩ := bind_ok_iff.1 hl
      obtain ⟨rest, hr, hl⟩ := bind_ok_iff.1 hl
      rcases List.mem_cons.1 hx with rfl | hx
      · exact ⟨s, hs⟩
      · exact ih hx rest hr
  obtain ⟨s, hs⟩ := key
  have h1 := C50_all_day e n hn x.entry.timespan hw hd
  have h2 : e.normalizeSpan n x.entry.timespan = .ok s := hs
  rw [h1] at h2
  cases h2

/-! ### C34: queries -/

theorem selects {p : TItem → Except PyErr Bool} {P : TItem → Prop} {its : List TItem} {r : List TEvent}
    (h : selectItems p its = .ok r) (hp : ∀ it ∈ its, p it = .ok true ↔ P it) : Selects its r P := by
  obtain ⟨h1, -⟩ := selectItems_ok its r h
  exact ⟨fun it => decide (p it = .ok true), fun it hit => by rw [decide_eq_true_iff]; exact hp it hit, h1⟩

/-- C34: `included` yields the events of the timeline included in the query, in timeline order. -/
theorem C34_included (e : Env) (k : Nat) (n : Option Normalization) (evs r : List TEvent) (q : Query)
    (h : e.included k n evs q = .ok r) :
    ∃ query its, e.querySpan n q = .ok query ∧ e.iterator k n evs = .ok its ∧
      Selects its r (fun it => e.isIncludedIn k it.1 query = .ok true) := by
  obtain ⟨query, hq, h⟩ := bind_ok_iff.1 h
  obtain ⟨its, hi, h⟩ := bind_ok_iff.1 h
  exact ⟨query, its, hq, hi, selects h (fun _ _ => Iff.rfl)⟩

/-- C34: `overlapping` yields the events of the timeline that intersect the query, in timeline
order. -/
theorem C34_overlapping (e : Env) (k : Nat) (n : Option Normalization) (evs r : List TEvent) (q : Query)
    (h : e.overlapping k n evs q = .ok r) :
    ∃ query its, e.querySpan n q = .ok query ∧ e.iterator k n evs = .ok its ∧
      Selects its r (fun it => e.intersects k it.1 query = .ok true) := by
  obtain ⟨query, hq, h⟩ := bind_ok_iff.1 h
  obtain ⟨its, hi, h⟩ := bind_ok_iff.1 h
  exact ⟨query, its, hq, hi, selects h (fun _ _ => Iff.rfl)⟩

/-- C34, the arguments: a span together with a second argument is a `ValueError`, whatever the timeline; two times are the same
query as the span from the one to the other, and times that are no span are the error of that span. -/
theorem C34_arguments (e : Env) (k : Nat) (n : Option Normalization) (evs : List TEvent) :
    (∀ s stop, e.included k n evs (.span s (some stop)) = .error .valueError ∧
      e.overlapping k n evs (.span s (some stop)) = .error .valueError) ∧
    ∀ b en,
      (∀ s, e.mkSpan ⟨.plain, some b, en, none, .second⟩ = .ok s →
        s = ⟨.plain, some b, en, none, .second⟩ ∧
        e.included k n evs (.times b en) = e.included k n evs (.span s none) ∧
        e.overlapping k n evs (.times b en) = e.overlapping k n evs (.span s none)) ∧
      ∀ err, e.mkSpan ⟨.plain, some b, en, none, .second⟩ = .error err →
        e.included k n evs (.times b en) = .error err ∧ e.overlapping k n evs (.times b en) = .error err := by
  refine ⟨fun s stop => ⟨rfl, rfl⟩, fun b en => ⟨fun s h => ?_, fun err h => ?_⟩⟩
  · have hq : e.querySpan n (.times b en) = e.querySpan n (.span s none) := by
      unfold Env.querySpan
      dsimp only
      rw [h]
      rfl
    refine ⟨(mkSpan_ok.1 h).2.symm, ?_, ?_⟩
    · unfold Env.included
      rw [hq]
    · unfold Env.overlapping
      rw [hq]
  · have hq : e.querySpan n (.times b en) = .error err := by
      unfold Env.querySpan
      dsimp only
      rw [h]
      rfl
    constructor
    · unfold Env.included
      rw [hq]
      rfl
    · unfold Env.overlapping
      rw [hq]
      rfl

/-- Both kinds of times exist. -/
example : dstEnv.mkSpan ⟨.plain, some ⟨dayNo 737511 + hours 9, false, none⟩, some ⟨dayNo 737511 + hours 11, false, none⟩, none,
      .second⟩ = .ok ⟨.plain, some ⟨dayNo 737511 + hours 9, false, none⟩, some ⟨dayNo 737511 + hours 11, false, none⟩, none,
      .second⟩ ∧
    dstEnv.mkSpan ⟨.plain, some ⟨dayNo 737511 + hours 9, false, none⟩, some ⟨dayNo 737511 + hours 8, false, none⟩, none,
      .second⟩ = .error .valueError := by
  decide +kernel

/-- C34, `included` in terms of instants (for tidy times): the events that begin no earlier than the
query and end before it.  (Events ending with the query are not reported, see `C31_fails`.) -/
theorem C34_included_partial (e : Env) (hl : e.Lawful (.loc 0)) (T : DT → Prop) (ht : e.Tidy T) (k : Nat)
    (n : Option Normalization) (evs r : List TEvent) (q : Query) (query : Span) (its : List TItem)
    (b' en' : DT) (hq : e.querySpan n q = .ok query) (hi : e.iterator k n evs = .ok its)
    (hs : e.AllTimed T k its) (ho : e.Timed query b' en') (fo : query.Fresh k) (t3 : T b') (t4 : T en')
    (h : e.included k n evs q = .ok r) :
    Selects its r (fun it => ∀ b en, e.Takes it b en → e.instant b' ≤ b ∧ en < e.instant en') := by
  unfold Env.included at h
  rw [hq, hi] at h
  refine selects h ?_
  intro it hit
  obtain ⟨fs, b, en, hs, t1, t2⟩ := hs it hit
  rw [isIncludedIn_eq hs ho fs fo]
  simp only [tidy_lt hl ht t2 t4, tidy_le hl ht t3 t1, Except.ok.injEq, Bool.and_eq_true,
    decide_eq_true_iff]
  constructor
  · intro h x y hx
    obtain ⟨rfl, rfl⟩ := timed_takes hs hx
    exact h
  · intro h
    exact h _ _ ⟨b, en, hs.2.1, hs.2.2.1, rfl, rfl⟩

/-- C34, `overlapping` in terms of instants (for tidy times): the events that have an instant in
common with the query, provided that neither is empty or begins where the other ends (see
`C30_fails`). -/
theorem C34_overlapping_partial (e : Env) (hl : e.Lawful (.loc 0)) (T : DT → Prop) (ht : e.Tidy T)
    (k : Nat) (n : Option Normalization) (evs r : List TEvent) (q : Query) (query : Span)
    (its : List TItem) (b' en' : DT) (hq : e.querySpan n q = .ok query)
    (hi : e.iterator k n evs = .ok its) (hs : e.AllTimed T k its) (ho : e.Timed query b' en')
    (fo : query.Fresh k) (t3 : T b') (t4 : T en') (hne : e.instant b' < e.instant en')
    (hd : ∀ it ∈ its, ∀ b en, e.Takes it b en → b < en ∧ b ≠ e.instant en' ∧ e.instant b' ≠ en)
    (h : e.overlapping k n evs q = .ok r) :
    Selects its r (fun it => ∀ b en, e.Takes it b en →
      ∃ t, During b en t ∧ During (e.instant b') (e.instant en') t) := by
  unfold Env.overlapping at h
  rw [hq, hi] at h
  refine selects h ?_
  intro it hit
  obtain ⟨fs, b, en, hs, t1, t2⟩ := hs it hit
  obtain ⟨d1, d2, d3⟩ := hd it hit _ _ ⟨b, en, hs.2.1, hs.2.2.1, rfl, rfl⟩
  rw [C30_partial e hl T ht k it.1 query b en b' en' hs ho fs fo t1 t2 t3 t4 d1 hne d2 d3]
  constructor
  · intro h x y hx
    obtain ⟨rfl, rfl⟩ := timed_takes hs hx
    exact h
  · intro h
    exact h _ _ ⟨b, en, hs.2.1, hs.2.2.1, rfl, rfl⟩

/-- C34: everything `included` yields is also yielded by `overlapping`, in the same order (for tidy
times). -/
theorem C34_subset_partial (e : Env) (hl : e.Lawful (.loc 0)) (T : DT → Prop) (ht : e.Tidy T) (k : Nat)
    (n : Option Normalization) (evs r r' : List TEvent) (q : Query) (query : Span) (its : List TItem)
    (b' en' : DT) (hq : e.querySpan n q = .ok query) (hi : e.iterator k n evs = .ok its)
    (hs : e.AllTimed T k its) (hle : ∀ it ∈ its, ∀ b en, e.Takes it b en → b ≤ en)
    (ho : e.Timed query b' en') (fo : query.Fresh k) (t3 : T b') (t4 : T en')
    (h : e.included k n evs q = .ok r) (h' : e.overlapping k n evs q = .ok r') : r.Sublist r' := by
  unfold Env.included at h
  unfold Env.overlapping at h'
  rw [hq, hi] at h h'
  obtain ⟨h1, -⟩ := selectItems_ok its r h
  obtain ⟨h2, -⟩ := selectItems_ok its r' h'
  subst h1; subst h2
  refine List.Sublist.map _ ?_
  clear h h' hi
  induction its with
  | nil => exact .slnil
  | cons it its ih =>
    have ih := ih (fun x hx => hs x (List.mem_cons_of_mem _ hx))
      (fun x hx => hle x (List.mem_cons_of_mem _ hx))
    obtain ⟨fs, b, en, hs, t1, t2⟩ := hs it (List.mem_cons_self ..)
    have hle := hle it (List.mem_cons_self ..) _ _ ⟨b, en, hs.2.1, hs.2.2.1, rfl, rfl⟩
    by_cases c : e.isIncludedIn k it.1 query = .ok true
    · have c2 : e.intersects k it.1 query = .ok true := by
        rw [isIncludedIn_eq hs ho fs fo] at c
        simp only [tidy_lt hl ht t2 t4, tidy_le hl ht t3 t1, Except.ok.injEq, Bool.and_eq_true,
          decide_eq_true_iff] at c
        rw [C30_exact_partial e hl T ht k it.1 query b en b' en' hs ho fs fo t1 t2 t3 t4 hle (by omega)]
        congr 1
        rw [decide_eq_true_iff]
        omega
      rw [List.filter_cons_of_pos (by simp [c]), List.filter_cons_of_pos (by simp [c2])]
      exact ih.cons_cons _
    · rw [List.filter_cons_of_neg (by simp [c])]
      by_cases c2 : e.intersects k it.1 query = .ok true
      · rw [List.filter_cons_of_pos (by simp [c2])]; exact ih.cons _
      · rw [List.filter_cons_of_neg (by simp [c2])]; exact ih

/-- C34: `at(t)` yields exactly the events taking place at the instant `t` (for tidy times). -/
theorem C34_at_partial (e : Env) (hl : e.Lawful (.loc 0)) (T : DT → Prop) (ht : e.Tidy T) (k : Nat)
    (n : Option Normalization) (evs r : List TEvent) (d t : DT) (its : List TItem)
    (hd : e.timelineDT n d = .ok t) (hi : e.iterator k n evs = .ok its) (hs : e.AllTimed T k its)
    (hc : e.Convertible t) (ft : t.Fresh k) (t3 : T t) (h : e.at k n evs d = .ok r) :
    Selects its r (fun it => ∀ b en, e.Takes it b en → During b en (e.instant t)) := by
  unfold Env.at at h
  rw [hd, hi] at h
  refine selects h ?_
  intro it hit
  obtain ⟨fs, b, en, hs, t1, t2⟩ := hs it hit
  rw [C31_instant_partial e hl T ht k it.1 b en t hs hc fs ft t1 t2 t3]
  constructor
  · intro h x y hx
    obtain ⟨rfl, rfl⟩ := timed_takes hs hx
    exact h
  · intro h
    exact h _ _ ⟨b, en, hs.2.1, hs.2.2.1, rfl, rfl⟩

/-- C34: `start_after(t)` yields exactly the events that begin after `t` (for tidy times): by the
instants if `t` is aware, by the wall clocks if it is naive. -/
theorem C34_start_after_partial (e : Env) (T : DT → Prop) (ht : e.Tidy T) (k : Nat)
    (n : Option Normalization) (evs r : List TEvent) (d t : DT) (its : List TItem)
    (hd : e.timelineDT n d = .ok t) (hi : e.iterator k n evs = .ok its) (hs : e.AllTimed T k its)
    (t3 : T t) (h : e.startAfter k n evs d = .ok r) :
    Selects its r (fun it => ∀ b, it.1.begin? = some b →
      if t.tz = none then t.wall < b.wall else e.instant t < e.instant b) := by
  unfold Env.startAfter at h
  rw [hd, hi] at h
  have hok := (selectItems_ok its r h).2
  refine selects h ?_
  intro it hit
  obtain ⟨fs, b, en, hs, t1, t2⟩ := hs it hit
  obtain ⟨v, hv⟩ := hok it hit
  unfold Env.beginsAfter at hv ⊢
  rw [hs.2.1] at hv ⊢
  dsimp only at hv ⊢
  unfold Env.gt Env.cmp at hv ⊢
  rw [e.sub_eq] at hv ⊢
  by_cases hk : (b.tz = none ↔ t.tz = none)
  · rw [if_pos hk]
    have : (0 < e.extent t b) ↔ if t.tz = none then t.wall < b.wall else e.instant t < e.instant b := by
      unfold Env.extent
      by_cases h0 : t.tz = none
      · have hb0 := hk.2 h0
        rw [if_pos (by rw [h0, hb0]), if_pos h0]
        omega
      · rw [if_neg h0]
        by_cases hz : t.tz = b.tz
        · rw [if_pos hz]
          have := (ht.2 t b t3 t1 hz h0).1
          omega
        · rw [if_neg hz]
          omega
    simp only [Except.map, Except.ok.injEq, decide_eq_true_iff]
    rw [this]
    constructor
    · intro h b' hb'
      injection hb' with hb'; subst hb'; exact h
    · intro h; exact h b rfl
  · rw [if_neg hk] at hv; cases hv

example : dstEnv.included 0 none [exEvent2, exEvent1] (.times ⟨dayNo 737511 + hours 9, false, none⟩
      (some ⟨dayNo 737511 + hours 11, false, none⟩)) = .ok [exEvent1] ∧
    dstEnv.overlapping 0 none [exEvent2, exEvent1] (.times ⟨dayNo 737511 + hours 9, false, none⟩
      (some ⟨dayNo 737511 + hours 11, false, none⟩)) = .ok [exEvent1, exEvent2] ∧
    dstEnv.at 0 none [exEvent2, exEvent1] ⟨dayNo 737511 + hours 10, false, none⟩ = .ok [exEvent2] ∧
    dstEnv.startAfter 0 none [exEvent2] ⟨dayNo 737511 + hours 8, false, some (.zone 0)⟩ =
      .ok [exEvent2] := by
  decide +kernel

/-! ### C35: the events of a day -/

/-- The query of `on`, if `d` is not in the last second of its day. -/
theorem dayQuery_eq (e : Env) (d : DT) (m : Int) (hr : d.InRange) (hm : LatestMidnight d.wall m)
    (hs : d.wall ≤ m + (24 * 60 * 60 - 1) * 1000000) (hmax : m + 24 * 60 * 60 * 1000000 < maxWall) :
    e.dayQuery none d = .ok ⟨.plain, some ⟨m, false, d.tz⟩,
      some ⟨m + 24 * 60 * 60 * 1000000, false, d.tz⟩, none, .second⟩ := by
  obtain ⟨⟨q, rfl⟩, h1, h2⟩ := hm
  obtain ⟨h3, h4⟩ := hr
  have hq : q = d.wall / 86400000000 := by
    have := h2 ((d.wall / 86400000000) * (24 * 60 * 60 * 1000000)) ⟨_, rfl⟩ (by omega)
    omega
  unfold Env.dayQuery
  have ha : d.add 1000000 = .ok ⟨d.wall + 1000000, false, d.tz⟩ := by
    unfold DT.add
    rw [mkWall_ok.2 ⟨by omega, by omega, rfl⟩]
  have hf : d.floorDay = ⟨q * (24 * 60 * 60 * 1000000), false, d.tz⟩ := by
    unfold DT.floorDay dayUs
    congr 1
    omega
  have hc : e.ceilDay ⟨d.wall + 1000000, false, d.tz⟩ =
      .ok ⟨q * (24 * 60 * 60 * 1000000) + 24 * 60 * 60 * 1000000, false, d.tz⟩ := by
    unfold Env.ceilDay
    rw [e.eq_floorDay]
    unfold DT.floorDay DT.add dayUs
    dsimp only
    by_cases hz : (d.wall + 1000000) % 86400000000 = 0
    · rw [if_pos (by simp [hz])]
      congr 2
      omega
    · rw [if_neg (by simp [hz]), mkWall_ok.2 ⟨by omega, by omega, rfl⟩]
      dsimp only
      congr 2
      omega
  refine bind_ok_iff.2 ⟨_, ha, bind_ok_iff.2 ⟨_, hc, ?_⟩⟩
  rw [hf]
  refine bind_ok_iff.2 ⟨_, mkSpan_of_wf ⟨?_, ?_⟩ ?_, rfl⟩
  · intro b hb; injection hb with hb; subst hb; exact ⟨by dsimp only; omega, by dsimp only; omega⟩
  · intro b hb; injection hb with hb; subst hb; exact ⟨by dsimp only; omega, by dsimp only; omega⟩
  · refine ⟨?_, ?_, Or.inr rfl, ?_, ?_, ?_, ?_, ?_, ?_, ?_, ?_⟩
    · intro b en hb he; injection hb with hb; injection he with he; subst hb; subst he; exact Iff.rfl
    · intro b en hb he; injection hb with hb; injection he with he; subst hb; subst he
      unfold Env.extent; rw [if_pos rfl]; dsimp only; omega
    · intro h; exact absurd rfl h
    · intro h; cases h
    · intro x hx; cases hx
    · intro h; cases h
    · intro h; cases h
    · intro h; cases h
    · intro b en hb he; injection hb with hb; injection he with he; subst hb; subst he
      intro _
      unfold Env.extent; rw [if_pos rfl]
      exact ⟨1000000, 86400, 0, Or.inr ⟨rfl, rfl⟩, by dsimp only; omega, by omega, by omega⟩
    · intro x hx; cases hx

/-- C35 for tidy times, if `d` is not in the last second of its day, no event is empty, begins with
the next day or ends with the day before: `on(d)` yields exactly the events that have an instant on
the day of `d`.  Missing: those cases, see `C35_second_fails` and `C35_touching_fails`; the last day
of the year 9999, where `on` overflows; times in gaps and overlaps. -/
theorem C35_partial (e : Env) (hl : e.Lawful (.loc 0)) (T : DT → Prop) (ht : e.Tidy T) (k : Nat)
    (evs : List TEvent) (its : List TItem) (d : DT) (m : Int) (hr : d.InRange)
    (hm : LatestMidnight d.wall m) (hsec : d.wall ≤ m + (24 * 60 * 60 - 1) * 1000000)
    (hmax : m + 24 * 60 * 60 * 1000000 < maxWall) (hi : e.iterator k none evs = .ok its)
    (ha : e.AllTimed T k its) (fd : d.Fresh k)
    (c1 : e.Convertible ⟨m, false, d.tz⟩) (c2 : e.Convertible ⟨m + 24 * 60 * 60 * 1000000, false, d.tz⟩)
    (t3 : T ⟨m, false, d.tz⟩) (t4 : T ⟨m + 24 * 60 * 60 * 1000000, false, d.tz⟩)
    (hday : e.instant ⟨m, false, d.tz⟩ < e.instant ⟨m + 24 * 60 * 60 * 1000000, false, d.tz⟩)
    (hd : ∀ it ∈ its, ∀ b en, e.Takes it b en → b < en ∧
      b ≠ e.instant ⟨m + 24 * 60 * 60 * 1000000, false, d.tz⟩ ∧ en ≠ e.instant ⟨m, false, d.tz⟩) :
    ∃ r, e.on k none evs d false = .ok r ∧
      Selects its r (fun it => ∀ b en, e.Takes it b en → ∃ t, During b en t ∧
        During (e.instant ⟨m, false, d.tz⟩) (e.instant ⟨m + 24 * 60 * 60 * 1000000, false, d.tz⟩) t) := by
  have hq := dayQuery_eq e d m hr hm hsec hmax
  have ho : e.Timed ⟨.plain, some ⟨m, false, d.tz⟩, some ⟨m + 24 * 60 * 60 * 1000000, false, d.tz⟩, none,
    .second⟩ ⟨m, false, d.tz⟩ ⟨m + 24 * 60 * 60 * 1000000, false, d.tz⟩ :=
    ⟨by simp, rfl, rfl, c1, c2⟩
  have fo : Span.Fresh k ⟨.plain, some ⟨m, false, d.tz⟩, some ⟨m + 24 * 60 * 60 * 1000000, false, d.tz⟩,
      none, .second⟩ := by
    constructor
    · intro b hb i hi; injection hb with hb; subst hb; exact fd i hi
    · intro b hb i hi; injection hb with hb; subst hb; exact fd i hi
  have hr : ∃ r, e.overlapping k none evs (.span ⟨.plain, some ⟨m, false, d.tz⟩,
      some ⟨m + 24 * 60 * 60 * 1000000, false, d.tz⟩, none, .second⟩ none) = .ok r := by
    obtain ⟨r, hr⟩ := selectItems_total (p := fun it => e.intersects k it.1 ⟨.plain, some ⟨m, false, d.tz⟩,
      some ⟨m + 24 * 60 * 60 * 1000000, false, d.tz⟩, none, .second⟩) its (fun it hit => by
        obtain ⟨fs, b, en, hs, -⟩ := ha it hit
        exact ⟨_, intersects_eq hs ho fs fo⟩)
    exact ⟨r, bind_ok_iff.2 ⟨_, rfl, bind_ok_iff.2 ⟨its, hi, hr⟩⟩⟩
  obtain ⟨r, hr⟩ := hr
  refine ⟨r, bind_ok_iff.2 ⟨_, hq, hr⟩, ?_⟩
  exact C34_overlapping_partial e hl T ht k none evs r _ _ its _ _ rfl hi ha ho fo t3 t4 hday
    (fun it hit b en hb => by
      obtain ⟨a1, a2, a3⟩ := hd it hit b en hb
      exact ⟨a1, a2, fun h => a3 h.symm⟩) hr

/-- C35, `strict`, for tidy times, if `d` is not in the last second of its day, no event is empty or
ends with the day: exactly the events lying entirely in the day. -/
theorem C35_strict_partial (e : Env) (hl : e.Lawful (.loc 0)) (T : DT → Prop) (ht : e.Tidy T) (k : Nat)
    (evs : List TEvent) (its : List TItem) (d : DT) (m : Int) (hr : d.InRange)
    (hm : LatestMidnight d.wall m) (hsec : d.wall ≤ m + (24 * 60 * 60 - 1) * 1000000)
    (hmax : m + 24 * 60 * 60 * 1000000 < maxWall) (hi : e.iterator k none evs = .ok its)
    (ha : e.AllTimed T k its) (fd : d.Fresh k)
    (c1 : e.Convertible ⟨m, false, d.tz⟩) (c2 : e.Convertible ⟨m + 24 * 60 * 60 * 1000000, false, d.tz⟩)
    (t3 : T ⟨m, false, d.tz⟩) (t4 : T ⟨m + 24 * 60 * 60 * 1000000, false, d.tz⟩)
    (hd : ∀ it ∈ its, ∀ b en, e.Takes it b en → b < en ∧
      en ≠ e.instant ⟨m + 24 * 60 * 60 * 1000000, false, d.tz⟩) :
    ∃ r, e.on k none evs d true = .ok r ∧
      Selects its r (fun it => ∀ b en, e.Takes it b en → ∀ t, During b en t →
        During (e.instant ⟨m, false, d.tz⟩) (e.instant ⟨m + 24 * 60 * 60 * 1000000, false, d.tz⟩) t) := by
  have hq := dayQuery_eq e d m hr hm hsec hmax
  have ho : e.Timed ⟨.plain, some ⟨m, false, d.tz⟩, some ⟨m + 24 * 60 * 60 * 1000000, false, d.tz⟩, none,
    .second⟩ ⟨m, false, d.tz⟩ ⟨m + 24 * 60 * 60 * 1000000, false, d.tz⟩ :=
    ⟨by simp, rfl, rfl, c1, c2⟩
  have fo : Span.Fresh k ⟨.plain, some ⟨m, false, d.tz⟩, some ⟨m + 24 * 60 * 60 * 1000000, false, d.tz⟩,
      none, .second⟩ := by
    constructor
    · intro b hb i hi; injection hb with hb; subst hb; exact fd i hi
    · intro b hb i hi; injection hb with hb; subst hb; exact fd i hi
  have hr : ∃ r, e.included k none evs (.span ⟨.plain, some ⟨m, false, d.tz⟩,
      some ⟨m + 24 * 60 * 60 * 1000000, false, d.tz⟩, none, .second⟩ none) = .ok r := by
    obtain ⟨r, hr⟩ := selectItems_total (p := fun it => e.isIncludedIn k it.1 ⟨.plain, some ⟨m, false, d.tz⟩,
      some ⟨m + 24 * 60 * 60 * 1000000, false, d.tz⟩, none, .second⟩) its (fun it hit => by
        obtain ⟨fs, b, en, hs, -⟩ := ha it hit
        exact ⟨_, isIncludedIn_eq hs ho fs fo⟩)
    exact ⟨r, bind_ok_iff.2 ⟨_, rfl, bind_ok_iff.2 ⟨its, hi, hr⟩⟩⟩
  obtain ⟨r, hr⟩ := hr
  refine ⟨r, bind_ok_iff.2 ⟨_, hq, hr⟩, ?_⟩
  obtain ⟨keep, hk, hre⟩ := C34_included_partial e hl T ht k none evs r _ _ its _ _ rfl hi ha ho fo t3 t4 hr
  refine ⟨keep, fun it hit => (hk it hit).trans ?_, hre⟩
  unfold During
  constructor
  · intro h b en hb t ht
    obtain ⟨a1, a2⟩ := h b en hb
    omega
  · intro h b en hb
    obtain ⟨a1, a2⟩ := hd it hit b en hb
    have b1 := h b en hb b ⟨by omega, by omega⟩
    have b2 := h b en hb (en - 1) ⟨by omega, by omega⟩
    omega

example : dstEnv.on 0 none [exEvent2, exEvent1] ⟨dayNo 737511 + hours 23, false, some (.zone 0)⟩ false =
      .ok [exEvent1, exEvent2] ∧
    dstEnv.on 0 none [exEvent2, exEvent1] ⟨dayNo 737511 + hours 23, false, some (.zone 0)⟩ true =
      .ok [exEvent1] ∧
    dstEnv.on 0 none [exEvent2, exEvent1] ⟨dayNo 737512, false, some (.zone 0)⟩ false =
      .ok [exEvent2] := by
  decide +kernel

/-- C35 is false in the last second of a day: half a second before midnight, `on` yields an event
that begins 12 hours later. -/
theorem C35_second_fails : ∃ (x : TEvent) (d b : DT),
    dstEnv.mkSpan x.entry.timespan = .ok x.entry.timespan ∧ x.entry.timespan.begin? = some b ∧
    dstEnv.on 0 none [x] d false = .ok [x] ∧ d.wall < dayNo 737512 ∧
    dayNo 737512 + hours 11 ≤ b.wall ∧ b.tz = d.tz :=
  ⟨⟨⟨.event, ⟨.event, some ⟨dayNo 737512 + hours 12, false, none⟩, none, some (hours 1), .second⟩, none⟩, 0⟩,
    ⟨dayNo 737512 - 500000, false, none⟩, ⟨dayNo 737512 + hours 12, false, none⟩, by decide +kernel⟩

/-- C35 is false for events that touch the day: one that ended when the day began is reported; one
that lies entirely in the day and ends with it is not reported with `strict`. -/
theorem C35_touching_fails : ∃ (x : TEvent),
    dstEnv.mkSpan x.entry.timespan = .ok x.entry.timespan ∧
    x.entry.timespan.end? = some ⟨dayNo 737512, false, none⟩ ∧
    x.entry.timespan.begin? = some ⟨dayNo 737512 - hours 1, false, none⟩ ∧
    dstEnv.on 0 none [x] ⟨dayNo 737512, false, none⟩ false = .ok [x] ∧
    dstEnv.on 0 none [x] ⟨dayNo 737511, false, none⟩ true = .ok [] :=
  ⟨⟨⟨.event, ⟨.event, some ⟨dayNo 737512 - hours 1, false, none⟩, some ⟨dayNo 737512, false, none⟩, none,
    .second⟩, none⟩, 0⟩, by decide +kernel⟩

/-! ### C53: now -/

/-- C53, what `now` yields (for tidy times, without normalization): the events taking place at the
instant at which the *local* clock shows the current UTC time. -/
theorem C53_exact_partial (e : Env) (hl : e.Lawful (.loc 0)) (T : DT → Prop) (ht : e.Tidy T) (k : Nat)
    (evs r : List TEvent) (its : List TItem) (u : Int) (hi : e.iterator k none evs = .ok its)
    (hs : e.AllTimed T k its) (hc : e.Convertible ⟨u, false, none⟩) (t3 : T ⟨u, false, none⟩)
    (h : e.now k none evs u = .ok r) :
    Selects its r (fun it => ∀ b en, e.Takes it b en → During b en (u - e.sysOff u false)) :=
  C34_at_partial e hl T ht k none evs r ⟨u, false, none⟩ ⟨u, false, none⟩ its rfl hi hs hc
    (fun i hi => by cases hi) t3 h

/-- C53 holds if local time is UTC (for tidy times, without normalization). -/
theorem C53_partial (e : Env) (hl : e.Lawful (.loc 0)) (T : DT → Prop) (ht : e.Tidy T) (k : Nat)
    (evs r : List TEvent) (its : List TItem) (u : Int) (hi : e.iterator k none evs = .ok its)
    (hs : e.AllTimed T k its) (hc : e.Convertible ⟨u, false, none⟩) (t3 : T ⟨u, false, none⟩)
    (hu : e.sysOff u false = 0) (h : e.now k none evs u = .ok r) :
    Selects its r (fun it => ∀ b en, e.Takes it b en → During b en u) := by
  have := C53_exact_partial e hl T ht k evs r its u hi hs hc t3 h
  rwa [hu, Int.sub_zero] at this

example : dstEnv.now 0 none [exEvent2, exEvent1] (dayNo 737511 + hours 10) = .ok [exEvent2] := by
  decide +kernel

/-- Like `dstEnv`, but local time is two hours ahead of UTC. -/
def aheadEnv : Env :=
  { dstEnv with locOff := fun _ _ => hours 2, locFromUtc := fun u => (u + hours 2, false),
                sysOff := fun _ _ => hours 2 }

/-- C53 is false if local time is not UTC: an event from 10:00 to 11:00 UTC is not reported at 10:30
UTC, but at 12:30 UTC. -/
theorem C53_fails : ∃ x : TEvent, aheadEnv.mkSpan x.entry.timespan = .ok x.entry.timespan ∧
    x.entry.timespan.begin? = some ⟨dayNo 737511 + hours 10, false, some (.zone 0)⟩ ∧
    x.entry.timespan.end? = some ⟨dayNo 737511 + hours 11, false, some (.zone 0)⟩ ∧
    aheadEnv.now 0 none [x] (dayNo 737511 + hours 10 + 1800000000) = .ok [] ∧
    aheadEnv.now 0 none [x] (dayNo 737511 + hours 12 + 1800000000) = .ok [x] :=
  ⟨⟨⟨.event, ⟨.event, some ⟨dayNo 737511 + hours 10, false, some (.zone 0)⟩,
    some ⟨dayNo 737511 + hours 11, false, some (.zone 0)⟩, none, .second⟩, none⟩, 0⟩, by decide +kernel⟩

end Ics
