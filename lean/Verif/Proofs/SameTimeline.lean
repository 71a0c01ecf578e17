import Verif.Spec.SameTimeline
import Verif.Proofs.Heapq

/-
Queries do not depend on which of the zone objects for UTC the events have.
-/
namespace Ics

/-! ### Heaps -/

section heap
variable {α : Type} {lt : α → α → Except PyErr Bool} {f : α → α} (hf : ∀ a b, lt (f a) (f b) = lt a b)
include hf

theorem siftdownLoop_map (start : Nat) (new : α) (fuel : Nat) (heap : List α) (pos : Nat) :
    siftdownLoop lt start (f new) fuel (heap.map f) pos = (siftdownLoop lt start new fuel heap pos).map (List.map f) := by
  induction fuel generalizing heap pos with
  | zero => simp only [siftdownLoop, Except.map, List.map_set]
  | succ fuel ih =>
    rw [siftdownLoop, siftdownLoop]
    split
    · rw [List.getElem?_map]
      cases heap[(pos - 1) / 2]? with
      | none => rfl
      | some parent =>
        dsimp only [Option.map_some]
        rw [hf]
        cases lt new parent with
        | error x => rfl
        | ok b =>
          cases b
          · simp only [bind, Except.bind, Except.map, List.map_set, Bool.false_eq_true, if_false]
          · simp only [bind, Except.bind, if_true]
            rw [← List.map_set]
            exact ih _ _
    · simp only [Except.map, List.map_set]

theorem siftdown_map (heap : List α) (start pos : Nat) :
    siftdown lt (heap.map f) start pos = (siftdown lt heap start pos).map (List.map f) := by
  rw [siftdown, siftdown, List.getElem?_map]
  cases heap[pos]? with
  | none => rfl
  | some new => exact siftdownLoop_map hf ..

theorem smallerChild_map (heap : List α) (child : Nat) : smallerChild lt (heap.map f) child = smallerChild lt heap child := by
  rw [smallerChild, smallerChild, List.length_map, List.getElem?_map, List.getElem?_map]
  cases heap[child]? with
  | none => rfl
  | some a =>
    cases heap[child + 1]? with
    | none => rfl
    | some b =>
      dsimp only [Option.map_some]
      rw [hf]

theorem siftupLoop_map (fuel : Nat) (heap : List α) (pos : Nat) :
    siftupLoop lt fuel (heap.map f) pos = (siftupLoop lt fuel heap pos).map fun r => (r.1.map f, r.2) := by
  induction fuel generalizing heap pos with
  | zero => rfl
  | succ fuel ih =>
    rw [siftupLoop, siftupLoop, List.length_map, smallerChild_map hf]
    split
    · cases smallerChild lt heap (2 * pos + 1) with
      | error x => rfl
      | ok c =>
        simp only [bind, Except.bind]
        rw [List.getElem?_map]
        cases heap[c]? with
        | none => rfl
        | some x =>
          dsimp only [Option.map_some]
          rw [← List.map_set]
          exact ih _ _
    · rfl

theorem siftup_map (heap : List α) (pos : Nat) : siftup lt (heap.map f) pos = (siftup lt heap pos).map (List.map f) := by
  rw [siftup, siftup, List.getElem?_map, List.length_map, siftupLoop_map hf]
  cases heap[pos]? with
  | none => rfl
  | some new =>
    dsimp only [Option.map_some]
    cases siftupLoop lt heap.length heap pos with
    | error x => rfl
    | ok r =>
      simp only [bind, Except.bind, Except.map]
      rw [← List.map_set]
      exact siftdown_map hf ..

theorem siftupAll_map (is : List Nat) (heap : List α) :
    siftupAll lt is (heap.map f) = (siftupAll lt is heap).map (List.map f) := by
  induction is generalizing heap with
  | nil => rfl
  | cons i is ih =>
    rw [siftupAll, siftupAll, siftup_map hf]
    cases siftup lt heap i with
    | error x => rfl
    | ok h => exact ih h

theorem heapify_map (heap : List α) : heapify lt (heap.map f) = (heapify lt heap).map (List.map f) := by
  rw [heapify, heapify, List.length_map]
  exact siftupAll_map hf ..

theorem heappop_map (heap : List α) : heappop lt (heap.map f) = (heappop lt heap).map fun r => (f r.1, r.2.map f) := by
  rw [heappop, heappop, List.getLast?_map, ← List.map_dropLast]
  cases heap.getLast? with
  | none => rfl
  | some last =>
    cases heap.dropLast with
    | nil => rfl
    | cons x rest =>
      simp only [Option.map_some, List.map_cons]
      have := siftup_map hf (last :: rest) 0
      rw [List.map_cons] at this
      rw [this]
      cases siftup lt (last :: rest) 0 <;> rfl

theorem popAll_map (fuel : Nat) (heap : List α) : popAll lt fuel (heap.map f) = (popAll lt fuel heap).map (List.map f) := by
  induction fuel generalizing heap with
  | zero => rfl
  | succ fuel ih =>
    cases heap with
    | nil => rfl
    | cons x heap =>
      have e1 : popAll lt (fuel + 1) ((x :: heap).map f) =
          (do let r ← heappop lt ((x :: heap).map f); let rest ← popAll lt fuel r.2; .ok (r.1 :: rest)) := rfl
      have e2 : popAll lt (fuel + 1) (x :: heap) =
          (do let r ← heappop lt (x :: heap); let rest ← popAll lt fuel r.2; .ok (r.1 :: rest)) := rfl
      rw [e1, e2, heappop_map hf]
      cases heappop lt (x :: heap) with
      | error x => rfl
      | ok r =>
        simp only [bind, Except.bind, Except.map]
        rw [ih]
        cases popAll lt fuel r.2 <;> rfl

end heap

/-! ### One zone object for UTC -/

section canon
variable (e : Env) (u : Nat)

/-- The zone, with `u` for every zone object for UTC. -/
def canonTz : Option Tz → Option Tz
  | some (.zone n) => if e.isUtc n then some (.zone u) else some (.zone n)
  | t => t

/-- The time with that zone. -/
def DT.canon (d : DT) : DT := { d with tz := canonTz e u d.tz }

/-- The span with such times. -/
def Span.canon (s : Span) : Span := { s with begin? := s.begin?.map (DT.canon e u), end? := s.end?.map (DT.canon e u) }

/-- The event with such a span. -/
def TEvent.canon (x : TEvent) : TEvent := { x with entry := { x.entry with timespan := x.entry.timespan.canon e u } }

/-- The item with such spans. -/
def itemCanon (it : TItem) : TItem := (it.1.canon e u, it.2.canon e u)

variable {e u} (hu : e.isUtc u = true) (hoff : ∀ n w f, e.isUtc n = true → e.off n w f = 0)

theorem canonTz_isNone (t : Option Tz) : (canonTz e u t).isNone = t.isNone := by
  unfold canonTz
  split
  · split <;> rfl
  · rfl

include hoff in
theorem canonTz_cases (t : Option Tz) : canonTz e u t = t ∨
    canonTz e u t = some (.zone u) ∧ ∃ n, t = some (.zone n) ∧ ∀ w f, e.tzOff (.zone n) w f = 0 := by
  unfold canonTz
  split
  · split
    · rename_i n h
      exact .inr ⟨rfl, n, rfl, fun w f => hoff n w f h⟩
    · exact .inl rfl
  · exact .inl rfl

include hu

theorem canonTz_idem (t : Option Tz) : canonTz e u (canonTz e u t) = canonTz e u t := by
  have hz : ∀ n, canonTz e u (some (.zone n)) = if e.isUtc n then some (.zone u) else some (.zone n) := fun _ => rfl
  cases t with
  | none => rfl
  | some t =>
    cases t with
    | zone n =>
      rw [hz]
      split
      · rw [hz, if_pos hu]
      · rename_i h
        rw [hz, if_neg h]
    | loc k => rfl
    | fixed o => rfl

theorem DT.canon_idem (d : DT) : (d.canon e u).canon e u = d.canon e u := by
  unfold DT.canon
  dsimp only
  rw [canonTz_idem hu]

theorem Span.canon_idem (s : Span) : (s.canon e u).canon e u = s.canon e u := by
  unfold Span.canon
  dsimp only
  rw [Option.map_map, Option.map_map, show DT.canon e u ∘ DT.canon e u = DT.canon e u from funext (DT.canon_idem hu)]

include hoff

theorem sub_canon (a b : DT) : e.sub (a.canon e u) (b.canon e u) = e.sub a b := by
  have ho : ∀ w f, e.tzOff (.zone u) w f = 0 := fun w f => hoff u w f hu
  obtain ⟨wa, fa, ta⟩ := a
  obtain ⟨wb, fb, tb⟩ := b
  unfold Env.sub DT.canon Env.utcoffset
  dsimp only
  by_cases h : ta = tb
  · subst h
    rw [if_pos rfl, if_pos rfl]
  · rw [if_neg h]
    rcases canonTz_cases hoff (u := u) ta with ha | ⟨ha, m, rfl, hm⟩ <;>
      rcases canonTz_cases hoff (u := u) tb with hb | ⟨hb, n, rfl, hn⟩
    · rw [ha, hb, if_neg h]
    · rw [ha, hb]
      split
      · rename_i h'
        subst h'
        simp only [Option.map_some, hn, ho]
        rw [Int.sub_zero, Int.add_zero]
      · cases ta <;> simp only [Option.map_some, Option.map_none, hn, ho]
    · rw [ha, hb]
      split
      · rename_i h'
        subst h'
        simp only [Option.map_some, hm, ho]
        rw [Int.sub_zero, Int.add_zero]
      · cases tb <;> simp only [Option.map_some, Option.map_none, hm, ho]
    · rw [ha, hb, if_pos rfl]
      simp only [Option.map_some, hm, hn]
      rw [Int.sub_zero, Int.add_zero]

theorem eq_canon (a b : DT) : e.eq (a.canon e u) (b.canon e u) = e.eq a b := by
  have ho : ∀ w f, e.tzOff (.zone u) w f = 0 := fun w f => hoff u w f hu
  obtain ⟨wa, fa, ta⟩ := a
  obtain ⟨wb, fb, tb⟩ := b
  unfold Env.eq DT.canon
  dsimp only
  by_cases h : ta = tb
  · subst h
    rw [if_pos rfl, if_pos rfl]
  · rw [if_neg h]
    rcases canonTz_cases hoff (u := u) ta with ha | ⟨ha, m, rfl, hm⟩ <;>
      rcases canonTz_cases hoff (u := u) tb with hb | ⟨hb, n, rfl, hn⟩
    · rw [ha, hb, if_neg h]
    · rw [ha, hb]
      split
      · rename_i h'
        subst h'
        simp only [hn, ho, ne_eq, not_true_eq_false, if_false, Int.sub_zero]
      · cases ta <;> simp only [hn, ho]
    · rw [ha, hb]
      split
      · rename_i h'
        subst h'
        simp only [hm, ho, ne_eq, not_true_eq_false, if_false, Int.sub_zero]
      · cases tb <;> simp only [hm, ho]
    · rw [ha, hb, if_pos rfl]
      simp only [hm, hn, ne_eq, not_true_eq_false, if_false, Int.sub_zero]

theorem lt_canon (a b : DT) : e.lt (a.canon e u) (b.canon e u) = e.lt a b := by
  unfold Env.lt Env.cmp; rw [sub_canon hu hoff]

theorem le_canon (a b : DT) : e.le (a.canon e u) (b.canon e u) = e.le a b := by
  unfold Env.le Env.cmp; rw [sub_canon hu hoff]

theorem gt_canon (a b : DT) : e.gt (a.canon e u) (b.canon e u) = e.gt a b := by
  unfold Env.gt Env.cmp; rw [sub_canon hu hoff]

omit hu hoff in
theorem add_canon (d : DT) (td : Int) : (d.canon e u).add td = (d.add td).map (DT.canon e u) := by
  unfold DT.add
  show (match mkWall (d.wall + td) with | .ok w => _ | .error e => _) = _
  cases mkWall (d.wall + td) <;> rfl

theorem effDur_canon (s : Span) : e.effDur (s.canon e u) = e.effDur s := by
  unfold Env.effDur
  show (match s.dur? with | some d => _ | none => _) = _
  cases s.dur? with
  | some d => rfl
  | none =>
    dsimp only [Span.canon]
    cases s.end? with
    | none => rfl
    | some en =>
      cases s.begin? with
      | none => rfl
      | some b =>
        dsimp only [Option.map_some]
        rw [sub_canon hu hoff]

theorem effEnd_canon (s : Span) : e.effEnd (s.canon e u) = (e.effEnd s).map (Option.map (DT.canon e u)) := by
  unfold Env.effEnd
  rw [effDur_canon hu hoff]
  dsimp only [Span.canon]
  cases s.end? with
  | some en => rfl
  | none =>
    cases s.begin? with
    | none => rfl
    | some b =>
      dsimp only [Option.map_some, Option.map_none]
      cases e.effDur s with
      | error x => rfl
      | ok d =>
        cases d with
        | none => rfl
        | some d =>
          dsimp only
          rw [add_canon]
          cases b.add d <;> rfl

omit hu hoff in
theorem normalizeDT_canon (k : Nat) (d : DT) :
    e.normalizeDT (cmpNormalization k) (d.canon e u) = (e.normalizeDT (cmpNormalization k) d).map (DT.canon e u) := by
  unfold Env.normalizeDT
  have : (d.canon e u).tz.isNone = d.tz.isNone := canonTz_isNone _
  rw [this]
  cases h : d.tz with
  | some t => rfl
  | none =>
    have hd : d.canon e u = d := by
      unfold DT.canon
      rw [h]
      cases d
      cases h
      rfl
    rw [hd]
    simp only [Option.isNone_none, Normalization.action, cmpNormalization, if_true, Env.astimezone?, Env.astimezone, h]
    rw [if_neg (fun h => by cases h)]
    cases mkWall (d.wall - e.sysOff d.wall d.fold) with
    | error x => rfl
    | ok v =>
      dsimp only
      cases mkWall (e.tzFromUtc (.loc k) v).1 <;> rfl

omit hu hoff in
theorem normalizeOpt_canon (k : Nat) (d : Option DT) :
    e.normalizeOpt (cmpNormalization k) (d.map (DT.canon e u)) =
      (e.normalizeOpt (cmpNormalization k) d).map (Option.map (DT.canon e u)) := by
  cases d with
  | none => rfl
  | some d =>
    show (match e.normalizeDT (cmpNormalization k) (d.canon e u) with | .ok d => _ | .error x => _) = _
    rw [normalizeDT_canon]
    show _ = Except.map _ (match e.normalizeDT (cmpNormalization k) d with | .ok d => _ | .error x => _)
    cases e.normalizeDT (cmpNormalization k) d <;> rfl

/-- Both components. -/
def pairCanon (e : Env) (u : Nat) (p : Option DT × Option DT) : Option DT × Option DT :=
  (p.1.map (DT.canon e u), p.2.map (DT.canon e u))

theorem spanTuple_canon (k : Nat) (dflt : Option DT) (hd : dflt.map (DT.canon e u) = dflt) (s : Span) :
    e.spanTuple k dflt (s.canon e u) = (e.spanTuple k dflt s).map (pairCanon e u) := by
  unfold Env.spanTuple
  have h1 : ∀ x : Option DT, (x.map (DT.canon e u)).or dflt = (x.or dflt).map (DT.canon e u) := by
    intro x
    cases x with
    | none => exact hd.symm
    | some x => rfl
  rw [show (s.canon e u).begin? = s.begin?.map (DT.canon e u) from rfl, h1, normalizeOpt_canon, effEnd_canon hu hoff]
  cases e.normalizeOpt (cmpNormalization k) (s.begin?.or dflt) with
  | error x => rfl
  | ok b =>
    cases e.effEnd s with
    | error x => rfl
    | ok en =>
      simp only [bind, Except.bind, Except.map]
      rw [h1, normalizeOpt_canon]
      cases e.normalizeOpt (cmpNormalization (k + 1)) (en.or dflt) with
      | error x => rfl
      | ok en =>
        show Except.ok (if s.cls = .todo then _ else _) = Except.ok (pairCanon e u (if s.cls = .todo then _ else _))
        split <;> rfl

theorem optEq_canon (a b : Option DT) : e.optEq (a.map (DT.canon e u)) (b.map (DT.canon e u)) = e.optEq a b := by
  cases a <;> cases b
  · rfl
  · rfl
  · rfl
  · exact eq_canon hu hoff ..

omit hu hoff in
theorem optOp_canon {op : DT → DT → Except PyErr Bool} (hop : ∀ a b, op (a.canon e u) (b.canon e u) = op a b) (a b : Option DT) :
    optOp op (a.map (DT.canon e u)) (b.map (DT.canon e u)) = optOp op a b := by
  cases a <;> cases b
  · rfl
  · rfl
  · rfl
  · exact hop ..

theorem tupleOp_canon {op : DT → DT → Except PyErr Bool} (hop : ∀ a b, op (a.canon e u) (b.canon e u) = op a b)
    (rest : Except PyErr Bool) (a b : Option DT × Option DT) :
    e.tupleOp op rest (pairCanon e u a) (pairCanon e u b) = e.tupleOp op rest a b := by
  unfold Env.tupleOp pairCanon
  dsimp only
  rw [optEq_canon hu hoff, optEq_canon hu hoff, optOp_canon hop, optOp_canon hop]

theorem cmpTuple_canon (k : Nat) (s : Span) : e.cmpTuple k (s.canon e u) = (e.cmpTuple k s).map (pairCanon e u) :=
  spanTuple_canon hu hoff k _ rfl s

theorem spanLt_canon (k : Nat) (a b : Span) : e.spanLt k (a.canon e u) (b.canon e u) = e.spanLt k a b := by
  unfold Env.spanLt
  rw [cmpTuple_canon hu hoff, cmpTuple_canon hu hoff]
  cases e.cmpTuple k a with
  | error x => rfl
  | ok x =>
    cases e.cmpTuple (k + 2) b with
    | error x => rfl
    | ok y => exact tupleOp_canon hu hoff (lt_canon hu hoff) ..

theorem spanEq_canon (a b : Span) : e.spanEq (a.canon e u) (b.canon e u) = e.spanEq a b := by
  unfold Env.spanEq
  dsimp only [Span.canon]
  rw [optEq_canon hu hoff, optEq_canon hu hoff]
  rfl

theorem entryLt_canon (k : Nat) (a b : TEvent) :
    e.entryLt k (a.canon e u).entry (b.canon e u).entry = e.entryLt k a.entry b.entry := by
  unfold Env.entryLt Env.entryOp
  dsimp only [TEvent.canon]
  rw [cmpTuple_canon hu hoff, cmpTuple_canon hu hoff]
  cases e.cmpTuple k a.entry.timespan with
  | error x => rfl
  | ok x =>
    cases e.cmpTuple (k + 2) b.entry.timespan with
    | error x => rfl
    | ok y => exact tupleOp_canon hu hoff (lt_canon hu hoff) ..

theorem eventEq_canon (a b : TEvent) : e.eventEq (a.canon e u) (b.canon e u) = e.eventEq a b := by
  unfold Env.eventEq
  dsimp only [TEvent.canon]
  rw [spanEq_canon hu hoff]
  rfl

theorem itemLt_canon (k : Nat) (a b : TItem) : e.itemLt k (itemCanon e u a) (itemCanon e u b) = e.itemLt k a b := by
  unfold Env.itemLt itemCanon
  dsimp only
  rw [spanEq_canon hu hoff, eventEq_canon hu hoff, entryLt_canon hu hoff, spanLt_canon hu hoff]

omit hu hoff in
theorem items_canon (evs : List TEvent) :
    e.items none (evs.map (TEvent.canon e u)) = (e.items none evs).map (List.map (itemCanon e u)) := by
  induction evs with
  | nil => rfl
  | cons x evs ih =>
    rw [List.map_cons, Env.items, Env.items, ih]
    cases e.items none evs with
    | error x => rfl
    | ok its =>
      simp only [Env.timelineSpan, bind, Except.bind, Except.map]
      have : ((x.canon e u).entry.timespan).truthy = x.entry.timespan.truthy := by
        unfold Span.truthy TEvent.canon Span.canon
        dsimp only
        rw [Option.isSome_map, Option.isSome_map]
      rw [this]
      split <;> rfl

theorem iterator_canon (k : Nat) (evs : List TEvent) :
    e.iterator k none (evs.map (TEvent.canon e u)) = (e.iterator k none evs).map (List.map (itemCanon e u)) := by
  unfold Env.iterator
  rw [items_canon]
  cases e.items none evs with
  | error x => rfl
  | ok its =>
    simp only [bind, Except.bind, Except.map]
    rw [heapify_map (itemLt_canon hu hoff k)]
    cases heapify (e.itemLt k) its with
    | error x => rfl
    | ok heap =>
      dsimp only [Except.map]
      rw [List.length_map, popAll_map (itemLt_canon hu hoff k)]
      rfl

/-- Selecting from the items. -/
theorem select_canon (k : Nat) (p : TItem → Except PyErr Bool) (hp : ∀ it, p (itemCanon e u it) = p it) (evs : List TEvent) :
    (do let its ← e.iterator k none (evs.map (TEvent.canon e u)); selectItems p its) =
      (do let its ← e.iterator k none evs; selectItems p its).map (List.map (TEvent.canon e u)) := by
  rw [iterator_canon hu hoff]
  cases e.iterator k none evs with
  | error x => rfl
  | ok its =>
    simp only [bind, Except.bind, Except.map]
    induction its with
    | nil => rfl
    | cons it its ih =>
      rw [List.map_cons, selectItems, selectItems, hp]
      cases p it with
      | error x => rfl
      | ok b =>
        simp only [bind, Except.bind]
        rw [ih]
        cases selectItems p its with
        | error x => rfl
        | ok r => cases b <;> rfl

/-! ### Conditions -/

omit hu hoff in
theorem requireAll_canon (r1 r2 r3 r4 : Bool) (a b : Option DT × Option DT) :
    requireAll r1 r2 r3 r4 (pairCanon e u a) (pairCanon e u b) = requireAll r1 r2 r3 r4 a b := by
  unfold requireAll requireSome pairCanon
  dsimp only
  simp only [Option.isNone_map]

omit hu hoff in
theorem tupleAttr_canon (s : Span) (d : Option DT) :
    (s.canon e u).tupleAttr (d.map (DT.canon e u)) = (s.tupleAttr d).map (DT.canon e u) := by
  show (if s.cls = .todo then _ else _) = Except.map _ (if s.cls = .todo then _ else _)
  split
  · rfl
  · cases d <;> rfl

theorem within_canon (lo x hi : Except PyErr DT) :
    e.within (lo.map (DT.canon e u)) (x.map (DT.canon e u)) (hi.map (DT.canon e u)) = e.within lo x hi := by
  unfold Env.within
  cases lo with
  | error x => rfl
  | ok l =>
    cases x with
    | error x => rfl
    | ok v =>
      simp only [bind, Except.bind, Except.map]
      rw [le_canon hu hoff]
      cases e.le l v with
      | error x => rfl
      | ok b =>
        cases hi with
        | error x => rfl
        | ok h =>
          dsimp only
          rw [lt_canon hu hoff]

theorem containedIn_canon (a b c d : Except PyErr DT) :
    e.containedIn (a.map (DT.canon e u)) (b.map (DT.canon e u)) (c.map (DT.canon e u)) (d.map (DT.canon e u)) =
      e.containedIn a b c d := by
  unfold Env.containedIn
  cases a with
  | error x => rfl
  | ok a =>
    cases b with
    | error x => rfl
    | ok b =>
      simp only [bind, Except.bind, Except.map]
      rw [le_canon hu hoff]
      cases e.le a b with
      | error x => rfl
      | ok r =>
        cases c with
        | error x => rfl
        | ok c =>
          cases d with
          | error x => rfl
          | ok d =>
            dsimp only
            rw [lt_canon hu hoff]

theorem intersects_canon (k : Nat) (s o : Span) : e.intersects k (s.canon e u) (o.canon e u) = e.intersects k s o := by
  unfold Env.intersects
  rw [spanTuple_canon hu hoff k none rfl, spanTuple_canon hu hoff (k + 2) none rfl]
  cases e.spanTuple k none s with
  | error x => rfl
  | ok a =>
    cases e.spanTuple (k + 2) none o with
    | error x => rfl
    | ok b =>
      simp only [bind, Except.bind, Except.map]
      rw [requireAll_canon]
      cases requireAll true true true true a b with
      | error x => rfl
      | ok _ =>
        dsimp only [pairCanon]
        simp only [tupleAttr_canon, within_canon hu hoff]

theorem isIncludedIn_canon (k : Nat) (s o : Span) : e.isIncludedIn k (s.canon e u) (o.canon e u) = e.isIncludedIn k s o := by
  unfold Env.isIncludedIn
  rw [spanTuple_canon hu hoff k none rfl, spanTuple_canon hu hoff (k + 2) none rfl]
  cases e.spanTuple k none s with
  | error x => rfl
  | ok a =>
    cases e.spanTuple (k + 2) none o with
    | error x => rfl
    | ok b =>
      simp only [bind, Except.bind, Except.map]
      rw [requireAll_canon]
      cases requireAll true true true true a b with
      | error x => rfl
      | ok _ =>
        dsimp only [pairCanon]
        simp only [tupleAttr_canon, containedIn_canon hu hoff]

theorem includesInstant_canon (k : Nat) (s : Span) (t : DT) :
    e.includesInstant k (s.canon e u) (t.canon e u) = e.includesInstant k s t := by
  unfold Env.includesInstant
  rw [spanTuple_canon hu hoff k none rfl, normalizeDT_canon]
  cases e.spanTuple k none s with
  | error x => rfl
  | ok a =>
    cases e.normalizeDT (cmpNormalization (k + 2)) t with
    | error x => rfl
    | ok t =>
      simp only [bind, Except.bind, Except.map]
      unfold requireSome pairCanon
      dsimp only
      simp only [Option.isNone_map, tupleAttr_canon]
      have := within_canon hu hoff (s.tupleAttr a.1) (.ok t) (s.tupleAttr a.2)
      rw [← this]
      rfl

theorem beginsAfter_canon (d : DT) (it : TItem) : e.beginsAfter d (itemCanon e u it) = e.beginsAfter d it := by
  unfold Env.beginsAfter itemCanon
  dsimp only [Span.canon]
  cases it.1.begin? with
  | none => rfl
  | some b =>
    dsimp only [Option.map_some]
    rw [← gt_canon hu hoff, DT.canon_idem hu, gt_canon hu hoff]

/-! ### Queries -/

theorem timeline_canon (k : Nat) (evs : List TEvent) :
    e.timeline k none (evs.map (TEvent.canon e u)) = (e.timeline k none evs).map (List.map (TEvent.canon e u)) := by
  unfold Env.timeline
  rw [iterator_canon hu hoff]
  cases e.iterator k none evs with
  | error x => rfl
  | ok its =>
    simp only [bind, Except.bind, Except.map, List.map_map]
    rfl

theorem included_canon (k : Nat) (evs : List TEvent) (q : Query) :
    e.included k none (evs.map (TEvent.canon e u)) q = (e.included k none evs q).map (List.map (TEvent.canon e u)) := by
  unfold Env.included
  cases e.querySpan none q with
  | error x => rfl
  | ok s =>
    refine select_canon hu hoff k _ (fun it => ?_) evs
    show e.isIncludedIn k (it.1.canon e u) s = _
    rw [← isIncludedIn_canon hu hoff, Span.canon_idem hu, isIncludedIn_canon hu hoff]

theorem overlapping_canon (k : Nat) (evs : List TEvent) (q : Query) :
    e.overlapping k none (evs.map (TEvent.canon e u)) q = (e.overlapping k none evs q).map (List.map (TEvent.canon e u)) := by
  unfold Env.overlapping
  cases e.querySpan none q with
  | error x => rfl
  | ok s =>
    refine select_canon hu hoff k _ (fun it => ?_) evs
    show e.intersects k (it.1.canon e u) s = _
    rw [← intersects_canon hu hoff, Span.canon_idem hu, intersects_canon hu hoff]

theorem startAfter_canon (k : Nat) (evs : List TEvent) (d : DT) :
    e.startAfter k none (evs.map (TEvent.canon e u)) d = (e.startAfter k none evs d).map (List.map (TEvent.canon e u)) :=
  select_canon hu hoff k _ (beginsAfter_canon hu hoff d) evs

theorem at_canon (k : Nat) (evs : List TEvent) (d : DT) :
    e.at k none (evs.map (TEvent.canon e u)) d = (e.at k none evs d).map (List.map (TEvent.canon e u)) := by
  refine select_canon hu hoff k _ (fun it => ?_) evs
  show e.includesInstant k (it.1.canon e u) d = _
  rw [← includesInstant_canon hu hoff, Span.canon_idem hu, includesInstant_canon hu hoff]

theorem on_canon (k : Nat) (evs : List TEvent) (d : DT) (strict : Bool) :
    e.on k none (evs.map (TEvent.canon e u)) d strict = (e.on k none evs d strict).map (List.map (TEvent.canon e u)) := by
  unfold Env.on
  cases e.dayQuery none d with
  | error x => rfl
  | ok s =>
    cases strict
    · exact overlapping_canon hu hoff k evs (.span s none)
    · exact included_canon hu hoff k evs (.span s none)

end canon

/-! ### The same events -/

section same
variable {L : Lib} (hU : UtcOk L)
include hU

theorem canon_time {a b : DT} : a.canon L.toEnv L.utc = b.canon L.toEnv L.utc ↔ SameTime L a b := by
  obtain ⟨wa, fa, ta⟩ := a
  obtain ⟨wb, fb, tb⟩ := b
  unfold DT.canon SameTime
  dsimp only
  rw [DT.mk.injEq]
  refine and_congr_right fun _ => and_congr_right fun _ => ?_
  have hz : ∀ n, canonTz L.toEnv L.utc (some (.zone n)) = if L.isUtc n then some (.zone L.utc) else some (.zone n) :=
    fun _ => rfl
  have hc : ∀ t, (canonTz L.toEnv L.utc t = t ∧ ∀ n, t = some (.zone n) → ¬ L.isUtc n = true) ∨
      ∃ n, t = some (.zone n) ∧ L.isUtc n = true ∧ canonTz L.toEnv L.utc t = some (.zone L.utc) := by
    rintro (_ | ⟨n | k | o⟩)
    · exact .inl ⟨rfl, fun _ h => by cases h⟩
    · rw [hz]
      by_cases h : L.isUtc n = true
      · exact .inr ⟨n, rfl, h, if_pos h⟩
      · exact .inl ⟨if_neg h, fun m hm => by cases hm; exact h⟩
    · exact .inl ⟨rfl, fun _ h => by cases h⟩
    · exact .inl ⟨rfl, fun _ h => by cases h⟩
  constructor
  · intro h
    rcases hc ta with ⟨ha, ha'⟩ | ⟨m, rfl, hm, ha⟩ <;> rcases hc tb with ⟨hb, hb'⟩ | ⟨n, rfl, hn, hb⟩
    · exact .inl (ha.symm.trans (h.trans hb))
    · exact absurd hU.utc (ha' _ (ha.symm.trans (h.trans hb)))
    · exact absurd hU.utc (hb' _ (hb.symm.trans (h.symm.trans ha)))
    · exact .inr ⟨m, n, rfl, rfl, hm, hn⟩
  · rintro (rfl | ⟨m, n, rfl, rfl, hm, hn⟩)
    · rfl
    · rw [hz, hz, if_pos hm, if_pos hn]

theorem canon_time? {a b : Option DT} :
    a.map (DT.canon L.toEnv L.utc) = b.map (DT.canon L.toEnv L.utc) ↔ SameTime? L a b := by
  cases a <;> cases b
  · exact ⟨fun _ => trivial, fun _ => rfl⟩
  · exact Iff.intro (fun h => (by cases h)) fun h => h.elim
  · exact Iff.intro (fun h => (by cases h)) fun h => h.elim
  · rw [Option.map_some, Option.map_some, Option.some.injEq]
    exact canon_time hU

theorem canon_span {a b : Span} : a.canon L.toEnv L.utc = b.canon L.toEnv L.utc ↔ SameSpan L a b := by
  unfold Span.canon
  rw [Span.mk.injEq, canon_time? hU, canon_time? hU]
  exact ⟨fun ⟨h1, h2, h3, h4, h5⟩ => ⟨h1, h2, h3, h4, h5⟩, fun ⟨h1, h2, h3, h4, h5⟩ => ⟨h1, h2, h3, h4, h5⟩⟩

theorem canon_event {a b : TEvent} : a.canon L.toEnv L.utc = b.canon L.toEnv L.utc ↔ SameEvent L a b := by
  unfold TEvent.canon
  rw [TEvent.mk.injEq, Entry.mk.injEq, canon_span hU]
  exact ⟨fun ⟨⟨h1, h2, h3⟩, h4⟩ => ⟨h1, h2, h3, h4⟩, fun ⟨h1, h2, h3, h4⟩ => ⟨⟨h1, h2, h3⟩, h4⟩⟩

theorem canon_events {a b : List TEvent} :
    a.map (TEvent.canon L.toEnv L.utc) = b.map (TEvent.canon L.toEnv L.utc) ↔ List.Forall₂ (SameEvent L) a b := by
  induction a generalizing b with
  | nil =>
    cases b with
    | nil => exact ⟨fun _ => .nil, fun _ => rfl⟩
    | cons y b => exact ⟨nofun, nofun⟩
  | cons x a ih =>
    cases b with
    | nil => exact ⟨nofun, nofun⟩
    | cons y b =>
      rw [List.map_cons, List.map_cons, List.cons.injEq, canon_event hU, ih, List.forall₂_cons]

/-- A query that commutes with the choice of the zone object gives the same answers. -/
theorem answer_canon (f : List TEvent → Except PyErr (List TEvent))
    (hf : ∀ evs, f (evs.map (TEvent.canon L.toEnv L.utc)) = (f evs).map (List.map (TEvent.canon L.toEnv L.utc)))
    {evs evs' : List TEvent} (h : List.Forall₂ (SameEvent L) evs evs') : SameAnswer L (f evs) (f evs') := by
  have h1 := hf evs
  have h2 := hf evs'
  rw [(canon_events hU).2 h, h2] at h1
  cases hx : f evs with
  | error x =>
    cases hy : f evs' with
    | error y =>
      rw [hx, hy] at h1
      cases h1
      exact .error _
    | ok m =>
      rw [hx, hy] at h1
      cases h1
  | ok l =>
    cases hy : f evs' with
    | error y =>
      rw [hx, hy] at h1
      cases h1
    | ok m =>
      rw [hx, hy] at h1
      exact .ok ((canon_events hU).1 (Except.ok.inj h1).symm)

theorem timeline_same (k : Nat) {evs evs' : List TEvent} (h : List.Forall₂ (SameEvent L) evs evs') : SameTimeline L k evs evs' where
  all := answer_canon hU (fun evs => L.toEnv.timeline k none evs) (timeline_canon hU.utc hU.off k) h
  included q := answer_canon hU (fun evs => L.toEnv.included k none evs q) (fun evs => included_canon hU.utc hU.off k evs q) h
  overlapping q :=
    answer_canon hU (fun evs => L.toEnv.overlapping k none evs q) (fun evs => overlapping_canon hU.utc hU.off k evs q) h
  startAfter d :=
    answer_canon hU (fun evs => L.toEnv.startAfter k none evs d) (fun evs => startAfter_canon hU.utc hU.off k evs d) h
  at_ d := answer_canon hU (fun evs => L.toEnv.at k none evs d) (fun evs => at_canon hU.utc hU.off k evs d) h
  on d strict :=
    answer_canon hU (fun evs => L.toEnv.on k none evs d strict) (fun evs => on_canon hU.utc hU.off k evs d strict) h
  today w strict :=
    answer_canon hU (fun evs => L.toEnv.today k none evs w strict) (fun evs => on_canon hU.utc hU.off k evs _ strict) h
  now w := answer_canon hU (fun evs => L.toEnv.now k none evs w) (fun evs => at_canon hU.utc hU.off k evs _) h

end same

end Ics
