import Verif.Proofs.Lazy
import Verif.Props.Timeline

/-
C89: the generators of the timeline, one `next` at a time.
-/
namespace Ics

/-- C89: `iterator` delivers, whatever happens to the calendar after the first `next`, what the loop computes for the events
at that moment; if an exception comes, what was delivered before belongs to different events of the calendar that have a
time. -/
theorem C89_iterator (e : Env) (k : Nat) (n : Option Normalization) (evs : List TEvent) :
    ∃ out err, Delivers (e.iterNext k n) .start evs out err ∧
      e.iterator k n evs = (match err with | none => .ok out | some x => .error x) ∧
      (out.map Prod.snd).Subperm evs ∧ ∀ it ∈ out, e.timelineSpan n it.2.entry.timespan = .ok it.1 ∧ it.1.truthy = true := by
  obtain ⟨out, err, hc, ha, hs⟩ := comes_iter e k n evs
  refine ⟨out, err, comes_delivers hc, ha, ?_⟩
  rcases hs with rfl | ⟨its, hi, hs⟩
  · exact ⟨List.nil_subperm, fun _ h => absurd h List.not_mem_nil⟩
  · have key : ∀ (evs : List TEvent) (its : List TItem), e.items n evs = .ok its →
        List.Sublist (its.map Prod.snd) evs ∧
          ∀ it ∈ its, e.timelineSpan n it.2.entry.timespan = .ok it.1 ∧ it.1.truthy = true := by
      intro evs
      induction evs with
      | nil =>
        intro its h
        cases h
        exact ⟨.slnil, fun _ h => absurd h List.not_mem_nil⟩
      | cons x xs ih =>
        intro its h
        simp only [Env.items, bind_ok_iff] at h
        obtain ⟨s, hsp, rest, hr, h⟩ := h
        cases h
        obtain ⟨h1, h2⟩ := ih rest hr
        split
        · rename_i ht
          refine ⟨h1.cons_cons x, fun it hit => ?_⟩
          rcases List.mem_cons.1 hit with rfl | hit
          · exact ⟨hsp, ht⟩
          · exact h2 it hit
        · exact ⟨h1.cons x, h2⟩
    obtain ⟨h1, h2⟩ := key evs its hi
    have hm : (out.map Prod.snd).Subperm (its.map Prod.snd) := by
      obtain ⟨l, hp, hsub⟩ := hs
      exact ⟨l.map Prod.snd, hp.map _, hsub.map _⟩
    exact ⟨hm.trans h1.subperm, fun it hit => h2 it (hs.subset hit)⟩

/-- C89: the first `j` calls give `j` items that begin no later than all others (for tidy times, see C33). -/
theorem C89_earliest (e : Env) (hl : e.Lawful (.loc 0)) (T : DT → Prop) (ht : e.Tidy T) (hn : e.NaiveClear T) (k : Nat)
    (n : Option Normalization) (evs : List TEvent) (its : List TItem) (h : e.iterator k n evs = .ok its)
    (hs : e.AllTimed T k its) (now : List TEvent) (acts : List Act) (he : eventsAtStart now acts = evs)
    (hj : nextsIn acts ≤ its.length) :
    runGen (e.iterNext k n) now .start acts = (its.take (nextsIn acts)).map .yields ∧
      ∀ a ∈ its.take (nextsIn acts), ∀ b ∈ its.drop (nextsIn acts), ∀ x1 y1 x2 y2, e.Takes a x1 y1 → e.Takes b x2 y2 →
        x1 ≤ x2 := by
  obtain ⟨out, err, hd, ha, -⟩ := C89_iterator e k n evs
  rw [h] at ha
  cases err with
  | some x => cases ha
  | none =>
    cases ha
    constructor
    · rw [hd now acts he, outcomes]
      rw [List.take_append_of_le_length (by simpa using hj), List.map_take]
    · have hp := C33_begin_partial e hl T ht hn k n evs _ h hs
      rw [← List.take_append_drop (nextsIn acts) its, List.pairwise_append] at hp
      exact hp.2.2

/-- C89: a query delivers what it picks from what `iterator` delivers, up to the first exception. -/
theorem C89_query (e : Env) (k : Nat) (n : Option Normalization) (cond : TItem → Except PyErr Bool) (evs : List TEvent) :
    ∃ its err out err', Delivers (e.iterNext k n) .start evs its err ∧
      e.iterator k n evs = (match err with | none => .ok its | some x => .error x) ∧ Picks cond its err out err' ∧
      Delivers (e.selectNext k n (.ok cond)) .start evs out err' := by
  obtain ⟨its, err, hc, ha, -⟩ := comes_iter e k n evs
  obtain ⟨out, err', hp, hc'⟩ := comes_query e k n cond hc
  exact ⟨its, err, out, err', comes_delivers hc, ha, hp, comes_delivers hc'⟩

/-- If the condition cannot be prepared, the first call raises. -/
theorem C89_prepare (e : Env) (k : Nat) (n : Option Normalization) (x : PyErr) (evs : List TEvent) :
    Delivers (e.selectNext k n (.error x)) .start evs [] (some x) :=
  comes_delivers (.raise (d := SelGen.done) (fun _ _ => rfl) (sel_dead e k n _))

/-- What a query delivers, compared with what the loop to its end computes. -/
theorem query_eager (e : Env) (k : Nat) (n : Option Normalization) (c : Except PyErr (TItem → Except PyErr Bool))
    (evs : List TEvent) :
    (∀ r, (do let p ← c; let its ← e.iterator k n evs; selectItems p its) = .ok r →
      Delivers (e.selectNext k n c) .start evs r none) ∧
    ((∀ r, (do let p ← c; let its ← e.iterator k n evs; selectItems p its) ≠ .ok r) →
      ∃ out x, Delivers (e.selectNext k n c) .start evs out (some x)) := by
  cases c with
  | error x =>
    refine ⟨fun r h => ?_, fun _ => ⟨[], x, C89_prepare e k n x evs⟩⟩
    have h : (Except.error x : Except PyErr (List TEvent)) = .ok r := h
    cases h
  | ok cond =>
    obtain ⟨its, err, out, err', -, ha, hp, hd⟩ := C89_query e k n cond evs
    have hk := picks_eager hp
    constructor
    · intro r h
      obtain ⟨p, hp', its', hi, h⟩ : ∃ p, Except.ok cond = Except.ok (ε := PyErr) p ∧ ∃ its', e.iterator k n evs = .ok its' ∧
          selectItems p its' = .ok r := by simpa only [bind_ok_iff] using h
      cases hp'
      rw [ha] at hi
      cases err with
      | some x => cases hi
      | none =>
        cases hi
        obtain ⟨rfl, rfl⟩ := (hk r).2 ⟨rfl, h⟩
        exact hd
    · intro h
      cases err' with
      | some x => exact ⟨out, x, hd⟩
      | none =>
        obtain ⟨rfl, hs⟩ := (hk out).1 ⟨rfl, rfl⟩
        exact absurd (by rw [ha]; exact hs) (h out)

/-- C89: iterating over a timeline to its end gives what `Env.timeline` says, and an exception if that says so. -/
theorem C89_timeline (e : Env) (k : Nat) (n : Option Normalization) (evs : List TEvent) :
    (∀ r, e.timeline k n evs = .ok r → Delivers (e.selectNext k n condAll) .start evs r none) ∧
    ((∀ r, e.timeline k n evs ≠ .ok r) → ∃ out x, Delivers (e.selectNext k n condAll) .start evs out (some x)) := by
  have all : ∀ its : List TItem, selectItems (fun _ => .ok true) its = .ok (its.map Prod.snd) := by
    intro its
    induction its with
    | nil => rfl
    | cons it its ih => simp only [selectItems, ih, bind, Except.bind, List.map_cons, if_true]
  have := query_eager e k n condAll evs
  have he : (do let p ← condAll; let its ← e.iterator k n evs; selectItems p its) = e.timeline k n evs := by
    unfold condAll Env.timeline
    cases e.iterator k n evs with
    | error x => rfl
    | ok its => exact all its
  rwa [he] at this

/-- C89, `included`. -/
theorem C89_included (e : Env) (k : Nat) (n : Option Normalization) (evs : List TEvent) (q : Query) :
    (∀ r, e.included k n evs q = .ok r → Delivers (e.selectNext k n (e.condIncluded k n q)) .start evs r none) ∧
    ((∀ r, e.included k n evs q ≠ .ok r) →
      ∃ out x, Delivers (e.selectNext k n (e.condIncluded k n q)) .start evs out (some x)) := by
  have := query_eager e k n (e.condIncluded k n q) evs
  have he : (do let p ← e.condIncluded k n q; let its ← e.iterator k n evs; selectItems p its) = e.included k n evs q := by
    unfold Env.condIncluded Env.included
    cases e.querySpan n q <;> rfl
  rwa [he] at this

/-- C89, `overlapping`. -/
theorem C89_overlapping (e : Env) (k : Nat) (n : Option Normalization) (evs : List TEvent) (q : Query) :
    (∀ r, e.overlapping k n evs q = .ok r → Delivers (e.selectNext k n (e.condOverlapping k n q)) .start evs r none) ∧
    ((∀ r, e.overlapping k n evs q ≠ .ok r) →
      ∃ out x, Delivers (e.selectNext k n (e.condOverlapping k n q)) .start evs out (some x)) := by
  have := query_eager e k n (e.condOverlapping k n q) evs
  have he : (do let p ← e.condOverlapping k n q; let its ← e.iterator k n evs; selectItems p its) =
      e.overlapping k n evs q := by
    unfold Env.condOverlapping Env.overlapping
    cases e.querySpan n q <;> rfl
  rwa [he] at this

/-- C89, `start_after`. -/
theorem C89_startAfter (e : Env) (k : Nat) (n : Option Normalization) (evs : List TEvent) (d : DT) :
    (∀ r, e.startAfter k n evs d = .ok r → Delivers (e.selectNext k n (e.condStartAfter n d)) .start evs r none) ∧
    ((∀ r, e.startAfter k n evs d ≠ .ok r) →
      ∃ out x, Delivers (e.selectNext k n (e.condStartAfter n d)) .start evs out (some x)) := by
  have := query_eager e k n (e.condStartAfter n d) evs
  have he : (do let p ← e.condStartAfter n d; let its ← e.iterator k n evs; selectItems p its) = e.startAfter k n evs d := by
    unfold Env.condStartAfter Env.startAfter
    cases e.timelineDT n d <;> rfl
  rwa [he] at this

/-- C89, `at` (and so `now`). -/
theorem C89_at (e : Env) (k : Nat) (n : Option Normalization) (evs : List TEvent) (d : DT) :
    (∀ r, e.at k n evs d = .ok r → Delivers (e.selectNext k n (e.condAt k n d)) .start evs r none) ∧
    ((∀ r, e.at k n evs d ≠ .ok r) → ∃ out x, Delivers (e.selectNext k n (e.condAt k n d)) .start evs out (some x)) := by
  have := query_eager e k n (e.condAt k n d) evs
  have he : (do let p ← e.condAt k n d; let its ← e.iterator k n evs; selectItems p its) = e.at k n evs d := by
    unfold Env.condAt Env.at
    cases e.timelineDT n d <;> rfl
  rwa [he] at this

/-- C89, `on` (and so `today`): what is wrong with the day is raised by the call, all else by the generator. -/
theorem C89_on (e : Env) (k : Nat) (n : Option Normalization) (evs : List TEvent) (d : DT) (strict : Bool) :
    (∀ x, e.dayQuery n d = .error x → e.condOn k n d strict = .error x) ∧
    (∀ query, e.dayQuery n d = .ok query → ∃ c, e.condOn k n d strict = .ok c ∧
      (∀ r, e.on k n evs d strict = .ok r → Delivers (e.selectNext k n c) .start evs r none) ∧
      ((∀ r, e.on k n evs d strict ≠ .ok r) → ∃ out x, Delivers (e.selectNext k n c) .start evs out (some x))) := by
  refine ⟨fun x h => by rw [Env.condOn, h]; rfl, fun query h => ?_⟩
  cases strict with
  | true =>
    refine ⟨e.condIncluded k n (.span query none), by rw [Env.condOn, h]; rfl, ?_⟩
    have he : e.on k n evs d true = e.included k n evs (.span query none) := by rw [Env.on, h]; rfl
    rw [he]
    exact C89_included e k n evs _
  | false =>
    refine ⟨e.condOverlapping k n (.span query none), by rw [Env.condOn, h]; rfl, ?_⟩
    have he : e.on k n evs d false = e.overlapping k n evs (.span query none) := by rw [Env.on, h]; rfl
    rw [he]
    exact C89_overlapping e k n evs _

/-- A floating event at noon. -/
def exFloating : TEvent :=
  ⟨⟨.event, ⟨.event, some ⟨dayNo 737511 + hours 12, false, none⟩, none, none, .second⟩, none⟩, 0⟩

/-- `start_after` can deliver events and then raise: here the first event is in a zone like the time asked for, and the
second is floating (`TypeError`); clearing the calendar in between changes nothing. -/
theorem C89_late_error : ∃ d evs, runGen (dstEnv.selectNext 0 none (dstEnv.condStartAfter none d)) [exFloating] .start
    [.assign evs, .next, .assign [], .next, .next] = [.yields exEvent2, .raises .typeError, .stops] := by
  refine ⟨⟨dayNo 737511, false, some (.zone 0)⟩, [exFloating, exEvent2], ?_⟩
  decide +kernel

/-- The hypotheses of `C89_earliest` about the calls. -/
example : eventsAtStart [] [.assign [exFloating, exEvent2], .next, .assign [], .next] = [exFloating, exEvent2] ∧
    nextsIn [.assign [exFloating, exEvent2], .next, .assign [], .next] = 2 ∧
    runGen (dstEnv.iterNext 0 none) [] .start [.assign [exFloating, exEvent2], .next, .assign [], .next] =
      [.yields (exEvent2.entry.timespan, exEvent2), .yields (exFloating.entry.timespan, exFloating)] := by
  decide +kernel

end Ics
