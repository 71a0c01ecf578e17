import Verif.Proofs.Queries
import Verif.Props.Timespan

/-
C26-C29: the order of spans, events and todos.
-/
namespace Ics

theorem sortable_comparable {e : Env} {s : Span} (h : e.Sortable s) : ∃ p, e.Comparable s p := by
  obtain ⟨⟨en, hen⟩, hc⟩ := h
  have h1 := hc _ (Or.inl rfl)
  have h2 := hc _ (Or.inr ⟨en, hen, rfl⟩)
  unfold Env.Comparable Env.keyOf
  rw [hen]
  dsimp only
  by_cases ht : s.cls = .todo
  · rw [if_pos ht]; exact ⟨_, rfl, h2, h1⟩
  · rw [if_neg ht]; exact ⟨_, rfl, h1, h2⟩

/-- The two times of the tuple are the times of the span. -/
theorem comparable_times {e : Env} {s : Span} {p : DT × DT} (h : e.Comparable s p) :
    e.timesOf s p.1 ∧ e.timesOf s p.2 := by
  obtain ⟨h, -⟩ := h
  unfold Env.keyOf at h
  split at h
  · cases h
  · rename_i en hen
    injection h with h
    have h1 : e.timesOf s (s.begin?.getD cmpDefault) := Or.inl rfl
    have h2 : e.timesOf s (en.getD cmpDefault) := Or.inr ⟨en, hen, rfl⟩
    split at h <;> subst h
    · exact ⟨h2, h1⟩
    · exact ⟨h1, h2⟩

theorem comparable_key {e : Env} {s : Span} {p : DT × DT} {x y : Int} (h : e.Comparable s p)
    (hk : e.SortKey s x y) : x = e.instant p.1 ∧ y = e.instant p.2 := by
  obtain ⟨h, -⟩ := h
  obtain ⟨en, hen, hk⟩ := hk
  unfold Env.keyOf at h
  rw [hen] at h
  dsimp only at h hk
  injection h with h
  by_cases ht : s.cls = .todo
  · rw [if_pos ht] at h hk; subst h; exact hk
  · rw [if_neg ht] at h hk; subst h; exact hk

/-! ### C26: the operators agree -/

theorem nop_lt_asymm (e : Env) (r r' : Bool) (p q : DT × DT) (hr : (r && r') = false) :
    (e.nop (fun x => decide (x < 0)) r p q && e.nop (fun x => decide (x < 0)) r' q p) = false := by
  have := nop_swap e (f := fun x => decide (x < 0)) (g := fun x => decide (0 < x)) (r := r') p q
    (fun x => by simp)
  rw [← this]
  unfold Env.nop
  split
  · split
    · exact hr
    · simp; omega
  · simp; omega

/-- C26 for spans: whenever their times can be converted to local time at all, no comparison raises,
and the results agree.  `k` and `j` number the `tzlocal()` objects created by the two comparisons. -/
theorem C26_spans (e : Env) (k j : Nat) (a b : Span) (ha : a.Fresh k) (hb : b.Fresh k)
    (ha' : a.Fresh j) (hb' : b.Fresh j) (sa : e.Sortable a) (sb : e.Sortable b) :
    ∃ lt gt le ge lt' le' : Bool,
      e.spanLt k a b = .ok lt ∧ e.spanGt k a b = .ok gt ∧ e.spanLe k a b = .ok le ∧
      e.spanGe k a b = .ok ge ∧ e.spanLt j b a = .ok lt' ∧ e.spanLe j b a = .ok le' ∧
      gt = lt' ∧ le = !lt' ∧ ge = le' ∧ (lt && lt') = false := by
  obtain ⟨p, hp⟩ := sortable_comparable sa
  obtain ⟨q, hq⟩ := sortable_comparable sb
  refine ⟨_, _, _, _, _, _, spanLt_eq ha hb hp hq, spanGt_eq ha hb hp hq, spanLe_eq ha hb hp hq,
    spanGe_eq ha hb hp hq, spanLt_eq hb' ha' hq hp, spanLe_eq hb' ha' hq hp, ?_, ?_, ?_, ?_⟩
  · exact nop_swap e p q (fun x => by simp)
  · rw [← nop_swap e (g := fun x => decide (0 < x)) p q (fun x => by simp)]
    exact nop_not e (r := false) p q (fun x => by
      rw [← decide_not]; congr 1; rw [eq_iff_iff]; omega)
  · exact nop_swap e p q (fun x => by congr 1; rw [eq_iff_iff]; omega)
  · exact nop_lt_asymm e _ _ p q rfl


/-- C26 for events and todos. -/
theorem C26_entries (e : Env) (k j : Nat) (a b : Entry) (ha : a.timespan.Fresh k)
    (hb : b.timespan.Fresh k) (ha' : a.timespan.Fresh j) (hb' : b.timespan.Fresh j)
    (sa : e.Sortable a.timespan) (sb : e.Sortable b.timespan) :
    ∃ lt gt le ge lt' le' : Bool,
      e.entryLt k a b = .ok lt ∧ e.entryGt k a b = .ok gt ∧ e.entryLe k a b = .ok le ∧
      e.entryGe k a b = .ok ge ∧ e.entryLt j b a = .ok lt' ∧ e.entryLe j b a = .ok le' ∧
      gt = lt' ∧ le = !lt' ∧ ge = le' ∧ (lt && lt') = false := by
  obtain ⟨p, hp⟩ := sortable_comparable sa
  obtain ⟨q, hq⟩ := sortable_comparable sb
  refine ⟨_, _, _, _, _, _, entryOp_eq (fun _ _ => rfl) ha hb hp hq,
    entryOp_eq (fun _ _ => rfl) ha hb hp hq, entryOp_eq (fun _ _ => rfl) ha hb hp hq,
    entryOp_eq (fun _ _ => rfl) ha hb hp hq, entryOp_eq (fun _ _ => rfl) hb' ha' hq hp,
    entryOp_eq (fun _ _ => rfl) hb' ha' hq hp, ?_, ?_, ?_, ?_⟩
  · rw [nop_swap e (f := fun x => decide (x < 0)) p q (fun x => by simp)]
    congr 1
    by_cases h : a.sumKey = b.sumKey
    · rw [if_pos h, if_pos h.symm]
    · rw [if_neg h, if_neg (fun h' => h h'.symm)]
  · rw [← nop_swap e (g := fun x => decide (0 < x)) p q (fun x => by simp), ← nop_not e p q
      (g := fun x => decide (x ≤ 0)) (fun x => by rw [← decide_not]; congr 1; rw [eq_iff_iff]; omega)]
    congr 1
    by_cases h : a.sumKey = b.sumKey
    · rw [if_pos h, if_pos h.symm]; rfl
    · rw [if_neg h, if_neg (fun h' => h h'.symm)]
  · rw [nop_swap e (f := fun x => decide (x ≤ 0)) p q (fun x => by congr 1; rw [eq_iff_iff]; omega)]
    congr 1
    by_cases h : a.sumKey = b.sumKey
    · rw [if_pos h, if_pos h.symm]
    · rw [if_neg h, if_neg (fun h' => h h'.symm)]
  · refine nop_lt_asymm e _ _ p q ?_
    by_cases h : a.sumKey = b.sumKey
    · rw [if_pos h]; rfl
    · rw [if_neg h, if_neg (fun h' => h h'.symm)]
      cases hs : strLt a.sumKey b.sumKey with
      | false => rfl
      | true => rw [strLt_asymm hs]; rfl

theorem effEnd_error {e : Env} {s : Span} {err : PyErr} (hw : WellFormed e s)
    (h : e.effEnd s = .error err) : err = .overflowError := by
  unfold Env.effEnd at h
  split at h
  · cases h
  · rename_i he
    split at h
    · cases h
    · rename_i b hb
      split at h
      · rename_i x hx
        unfold Env.effDur at hx
        rw [he, hb] at hx
        split at hx
        · cases hx
        · split at hx
          · rename_i h1 h2; cases h1
          · split at hx <;> cases hx
      · cases h
      · rename_i d hd
        unfold DT.add at h
        cases hm : mkWall (b.wall + d) with
        | ok w => rw [hm] at h; cases h
        | error x => rw [hm] at h; injection h with h; subst h; exact mkWall_error hm

/-- C26: the only exception a comparison of constructed spans can raise is an overflow at the ends of
the calendar; in particular mixing naive and aware times is no `TypeError`. -/
theorem C26_errors (e : Env) (k : Nat) (a b : Span) (ha : a.Fresh k) (hb : b.Fresh k)
    (wa : WellFormed e a) (wb : WellFormed e b) (err : PyErr)
    (h : e.spanLt k a b = .error err ∨ e.spanGt k a b = .error err ∨ e.spanLe k a b = .error err ∨
      e.spanGe k a b = .error err) : err = .overflowError := by
  have key : ∀ (s : Span) (i : Nat) (x : PyErr), WellFormed e s → e.cmpTuple i s = .error x →
      x = .overflowError := by
    intro s i x hw hx
    unfold Env.cmpTuple Env.spanTuple at hx
    rw [or_some_getD] at hx
    have opt : ∀ (i : Nat) (d : DT) (x : PyErr),
        e.normalizeOpt (cmpNormalization i) (some d) = .error x → x = .overflowError := by
      intro i d x hx
      unfold Env.normalizeOpt at hx
      dsimp only at hx
      split at hx
      · cases hx
      · rename_i err herr
        injection hx with hx; subst hx; exact normalizeDT_error herr
    cases h1 : e.normalizeOpt (cmpNormalization i) (some (s.begin?.getD cmpDefault)) with
    | error y => rw [h1] at hx; injection hx with hx; subst hx; exact opt _ _ _ h1
    | ok y =>
      rw [h1] at hx
      cases h2 : e.effEnd s with
      | error z => rw [h2] at hx; injection hx with hx; subst hx; exact effEnd_error hw h2
      | ok en =>
        rw [h2] at hx
        simp only [bind, Except.bind] at hx
        rw [or_some_getD] at hx
        cases h3 : e.normalizeOpt (cmpNormalization (i + 1)) (some (en.getD cmpDefault)) with
        | error z => rw [h3] at hx; injection hx with hx; subst hx; exact opt _ _ _ h3
        | ok z => rw [h3] at hx; cases hx
  have main : ∀ (op : DT → DT → Except PyErr Bool) (f : Int → Bool) (rest : Bool),
      (∀ a b, op a b = (e.cmp a b).map f) →
      ((do
        let x ← e.cmpTuple k a
        let y ← e.cmpTuple (k + 2) b
        e.tupleOp op (.ok rest) x y) = .error err) → err = .overflowError := by
    intro op f rest hop h
    cases h1 : e.cmpTuple k a with
    | error y => rw [h1] at h; injection h with h; subst h; exact key _ _ _ wa h1
    | ok x =>
      cases h2 : e.cmpTuple (k + 2) b with
      | error y => rw [h1, h2] at h; injection h with h; subst h; exact key _ _ _ wb h2
      | ok y =>
        obtain ⟨p, hp⟩ := tuple_comparable h1
        obtain ⟨q, hq⟩ := tuple_comparable h2
        rw [h1, h2] at h
        simp only [bind, Except.bind] at h
        rw [tupleOp_eq hop ha hb hp hq h1 h2] at h
        cases h
  rcases h with h | h | h | h
  · exact main _ _ _ (fun _ _ => rfl) h
  · exact main _ _ _ (fun _ _ => rfl) h
  · exact main _ _ _ (fun _ _ => rfl) h
  · exact main _ _ _ (fun _ _ => rfl) h

/-- A naive span and an aware one (the hypotheses of C26 hold): compared in local time. -/
def exNaive : Span := ⟨.event, some ⟨dayNo 737511 + hours 9, false, none⟩, none, some (hours 1), .second⟩

example : exNaive.Fresh 0 ∧ exSpan.Fresh 0 := by
  refine ⟨⟨?_, ?_⟩, ⟨?_, ?_⟩⟩ <;> intro d hd i hi <;> cases hd <;> cases hi

theorem exNaive_sortable : dstEnv.Sortable exNaive := by
  refine ⟨⟨_, rfl⟩, ?_⟩
  rintro d (rfl | ⟨en, hen, rfl⟩)
  · intro _; refine ⟨?_, ?_, ?_⟩ <;> decide +kernel
  · have : en = some ⟨dayNo 737511 + hours 10, false, none⟩ := by
      have h : dstEnv.effEnd exNaive = .ok (some ⟨dayNo 737511 + hours 10, false, none⟩) := by decide +kernel
      rw [h] at hen; injection hen with hen; exact hen.symm
    subst this
    intro _; refine ⟨?_, ?_, ?_⟩ <;> decide +kernel

example : dstEnv.spanLt 0 exNaive exSpan = .ok true ∧ dstEnv.spanGe 7 exNaive exSpan = .ok false := by
  decide +kernel

/-! ### C27: a well-defined order -/

theorem nop_tidy {e : Env} (hl : e.Lawful (.loc 0)) {T : DT → Prop} (ht : e.Tidy T) {p q : DT × DT}
    (h1 : T p.1) (h2 : T p.2) (h3 : T q.1) (h4 : T q.2) (r : Bool) :
    e.nop (fun x => decide (x < 0)) r p q = decide (e.instant p.1 < e.instant q.1 ∨
      (e.instant p.1 = e.instant q.1 ∧ (e.instant p.2 < e.instant q.2 ∨
        (e.instant p.2 = e.instant q.2 ∧ r = true)))) := by
  obtain ⟨a1, a2⟩ := tidy_cmp hl ht h1 h3
  obtain ⟨b1, b2⟩ := tidy_cmp hl ht h2 h4
  unfold Env.nop
  rw [Bool.eq_iff_iff, decide_eq_true_iff]
  by_cases c1 : e.neq p.1 q.1 = true
  · have d1 := a2.1 c1
    rw [if_pos c1]
    by_cases c2 : e.neq p.2 q.2 = true
    · have d2 := b2.1 c2
      rw [if_pos c2]
      constructor
      · intro h; exact Or.inr ⟨d1, Or.inr ⟨d2, h⟩⟩
      · rintro (h | ⟨-, h | h⟩)
        · omega
        · omega
        · exact h.2
    · have d2 := fun h => c2 (b2.2 h)
      rw [if_neg c2, decide_eq_true_iff, b1]
      constructor
      · intro h; exact Or.inr ⟨d1, Or.inl h⟩
      · rintro (h | ⟨-, h | h⟩)
        · omega
        · exact h
        · exact absurd h.1 d2
  · have d1 := fun h => c1 (a2.2 h)
    rw [if_neg c1, decide_eq_true_iff, a1]
    constructor
    · intro h; exact Or.inl h
    · rintro (h | h)
      · exact h
      · exact absurd h.1 d1

/-- C27, what the order is: as long as the times of the two spans are tidy (no gap or overlap of a zone
is involved), the order is the lexicographic order of the instants.  Missing: the other times,
see `C27_fails`. -/
theorem C27_chronological_partial (e : Env) (hl : e.Lawful (.loc 0)) (T : DT → Prop) (ht : e.Tidy T)
    (k : Nat) (a b : Span) (ha : a.Fresh k) (hb : b.Fresh k) (sa : e.Sortable a) (sb : e.Sortable b)
    (ta : ∀ d, e.timesOf a d → T d) (tb : ∀ d, e.timesOf b d → T d) (x1 y1 x2 y2 : Int)
    (ka : e.SortKey a x1 y1) (kb : e.SortKey b x2 y2) :
    e.spanLt k a b = .ok (decide (x1 < x2 ∨ (x1 = x2 ∧ y1 < y2))) := by
  obtain ⟨p, hp⟩ := sortable_comparable sa
  obtain ⟨q, hq⟩ := sortable_comparable sb
  obtain ⟨rfl, rfl⟩ := comparable_key hp ka
  obtain ⟨rfl, rfl⟩ := comparable_key hq kb
  rw [spanLt_eq ha hb hp hq, nop_tidy hl ht (ta _ (comparable_times hp).1) (ta _ (comparable_times hp).2)
    (tb _ (comparable_times hq).1) (tb _ (comparable_times hq).2)]
  simp

/-- C27, the same for events and todos: ties are broken by the summary. -/
theorem C27_entries_partial (e : Env) (hl : e.Lawful (.loc 0)) (T : DT → Prop) (ht : e.Tidy T)
    (k : Nat) (a b : Entry) (ha : a.timespan.Fresh k) (hb : b.timespan.Fresh k)
    (sa : e.Sortable a.timespan) (sb : e.Sortable b.timespan)
    (ta : ∀ d, e.timesOf a.timespan d → T d) (tb : ∀ d, e.timesOf b.timespan d → T d)
    (x1 y1 x2 y2 : Int) (ka : e.SortKey a.timespan x1 y1) (kb : e.SortKey b.timespan x2 y2) :
    e.entryLt k a b = .ok (decide (x1 < x2 ∨ (x1 = x2 ∧ (y1 < y2 ∨
      (y1 = y2 ∧ strLt (a.summary.getD []) (b.summary.getD []) = true))))) := by
  obtain ⟨p, hp⟩ := sortable_comparable sa
  obtain ⟨q, hq⟩ := sortable_comparable sb
  obtain ⟨rfl, rfl⟩ := comparable_key hp ka
  obtain ⟨rfl, rfl⟩ := comparable_key hq kb
  unfold Env.entryLt
  rw [entryOp_eq (op := e.lt) (f := fun x => decide (x < 0)) (fun _ _ => rfl) ha hb hp hq, nop_tidy hl ht (ta _ (comparable_times hp).1)
    (ta _ (comparable_times hp).2) (tb _ (comparable_times hq).1) (tb _ (comparable_times hq).2)]
  have : (if a.sumKey = b.sumKey then false else strLt a.sumKey b.sumKey) =
      strLt (a.summary.getD []) (b.summary.getD []) := by
    unfold Entry.sumKey
    split
    · rename_i h; rw [h, strLt_irrefl]
    · rfl
  rw [this]

theorem sortKey_exists {e : Env} {s : Span} (h : e.Sortable s) : ∃ x y, e.SortKey s x y := by
  obtain ⟨⟨en, hen⟩, -⟩ := h
  by_cases ht : s.cls = .todo
  · exact ⟨_, _, en, hen, by rw [if_pos ht]; exact ⟨rfl, rfl⟩⟩
  · exact ⟨_, _, en, hen, by rw [if_neg ht]; exact ⟨rfl, rfl⟩⟩

/-- C27 for tidy times: `<` is transitive, and so is "neither is less". -/
theorem C27_transitive_partial (e : Env) (hl : e.Lawful (.loc 0)) (T : DT → Prop) (ht : e.Tidy T)
    (k : Nat) (a b c : Span) (ha : a.Fresh k) (hb : b.Fresh k) (hc : c.Fresh k)
    (sa : e.Sortable a) (sb : e.Sortable b) (sc : e.Sortable c)
    (ta : ∀ d, e.timesOf a d → T d) (tb : ∀ d, e.timesOf b d → T d) (tc : ∀ d, e.timesOf c d → T d) :
    (e.spanLt k a b = .ok true → e.spanLt k b c = .ok true → e.spanLt k a c = .ok true) ∧
    (e.spanLt k a b = .ok false → e.spanLt k b a = .ok false → e.spanLt k b c = .ok false →
      e.spanLt k c b = .ok false → e.spanLt k a c = .ok false ∧ e.spanLt k c a = .ok false) := by
  obtain ⟨x1, y1, ka⟩ := sortKey_exists sa
  obtain ⟨x2, y2, kb⟩ := sortKey_exists sb
  obtain ⟨x3, y3, kc⟩ := sortKey_exists sc
  rw [C27_chronological_partial e hl T ht k a b ha hb sa sb ta tb x1 y1 x2 y2 ka kb,
    C27_chronological_partial e hl T ht k b a hb ha sb sa tb ta x2 y2 x1 y1 kb ka,
    C27_chronological_partial e hl T ht k b c hb hc sb sc tb tc x2 y2 x3 y3 kb kc,
    C27_chronological_partial e hl T ht k c b hc hb sc sb tc tb x3 y3 x2 y2 kc kb,
    C27_chronological_partial e hl T ht k a c ha hc sa sc ta tc x1 y1 x3 y3 ka kc,
    C27_chronological_partial e hl T ht k c a hc ha sc sa tc ta x3 y3 x1 y1 kc ka]
  simp only [Except.ok.injEq, decide_eq_true_iff, decide_eq_false_iff_not]
  refine ⟨?_, ?_⟩
  · intro h1 h2; omega
  · intro h1 h2 h3 h4; exact ⟨by omega, by omega⟩

/-- The times of `exNaive` and `exSpan` are tidy: winter time and summer time of one day apart. -/
example : dstEnv.Tidy (fun d => dstEnv.timesOf exNaive d ∨ dstEnv.timesOf exSpan d) := by
  have h1 : dstEnv.effEnd exNaive = .ok (some ⟨dayNo 737511 + hours 10, false, none⟩) := by decide +kernel
  have h2 : dstEnv.effEnd exSpan = .ok exSpan.end? := by decide +kernel
  have key : ∀ d, dstEnv.timesOf exNaive d ∨ dstEnv.timesOf exSpan d →
      d ∈ [exNaive.begin?.getD cmpDefault, ⟨dayNo 737511 + hours 10, false, none⟩,
        exSpan.begin?.getD cmpDefault, exSpan.end?.getD cmpDefault] := by
    rintro d ((rfl | ⟨en, hen, rfl⟩) | (rfl | ⟨en, hen, rfl⟩))
    · decide +kernel
    · rw [h1] at hen; injection hen with hen; subst hen; decide +kernel
    · decide +kernel
    · rw [h2] at hen; injection hen with hen; subst hen; decide +kernel
  refine ⟨?_, ?_⟩
  · intro d hd t ht
    have := key d hd
    simp only [List.mem_cons, List.not_mem_nil, or_false] at this
    rcases this with rfl | rfl | rfl | rfl <;> cases ht <;> decide +kernel
  · intro x y hx hy
    have hx := key x hx
    have hy := key y hy
    simp only [List.mem_cons, List.not_mem_nil, or_false] at hx hy
    rcases hx with rfl | rfl | rfl | rfl <;> rcases hy with rfl | rfl | rfl | rfl <;> decide +kernel

/-- C27 is false in general: three events in a cycle.  Two are in the hour that occurs twice at the end
of DST and are compared by their wall clocks, the third is given in UTC. -/
theorem C27_fails : ∃ a b c : Span, dstEnv.mkSpan a = .ok a ∧ dstEnv.mkSpan b = .ok b ∧
    dstEnv.mkSpan c = .ok c ∧ dstEnv.spanLt 0 a b = .ok true ∧ dstEnv.spanLt 0 b c = .ok true ∧
    dstEnv.spanLt 0 c a = .ok true :=
  ⟨⟨.event, some ⟨dayNo 737722 + hours 2 + 1800000000, true, some (.zone 1)⟩, none, none, .second⟩,
    ⟨.event, some ⟨dayNo 737722 + hours 2 + 2700000000, false, some (.zone 1)⟩, none, none, .second⟩,
    ⟨.event, some ⟨dayNo 737722 + hours 1, false, some (.zone 0)⟩, none, none, .second⟩, by decide +kernel⟩

/-! ### C28: the end representation -/

theorem cmpTuple_congr {e : Env} {s t : Span} (h1 : s.cls = t.cls) (h2 : s.begin? = t.begin?)
    (h3 : e.effEnd s = e.effEnd t) (k : Nat) : e.cmpTuple k s = e.cmpTuple k t := by
  unfold Env.cmpTuple Env.spanTuple
  rw [h1, h2, h3]

/-- All comparisons of `s` and `t` with any other span give the same result. -/
def Env.SameOrder (e : Env) (s t : Span) : Prop :=
  ∀ k o, e.spanLt k s o = e.spanLt k t o ∧ e.spanLt k o s = e.spanLt k o t ∧
    e.spanGt k s o = e.spanGt k t o ∧ e.spanGt k o s = e.spanGt k o t ∧
    e.spanLe k s o = e.spanLe k t o ∧ e.spanLe k o s = e.spanLe k o t ∧
    e.spanGe k s o = e.spanGe k t o ∧ e.spanGe k o s = e.spanGe k o t

theorem sameOrder {e : Env} {s t : Span} (h1 : s.cls = t.cls) (h2 : s.begin? = t.begin?)
    (h3 : e.effEnd s = e.effEnd t) : e.SameOrder s t := by
  intro k o
  unfold Env.spanLt Env.spanGt Env.spanLe Env.spanGe
  simp only [cmpTuple_congr h1 h2 h3, and_self]

/-- C28, from duration to end: no comparison changes. -/
theorem C28_to_end (e : Env) (s t : Span) (hd : s.dur? ≠ none) (hb : s.begin? ≠ none)
    (h : e.convertEnd s .end_ = .ok t) : t.endRepr = .end_ ∧ e.SameOrder s t := by
  have hr : s.endRepr = .duration := by
    cases hx : s.dur? with
    | none => exact absurd hx hd
    | some d => simp [Span.endRepr, hx]
  unfold Env.convertEnd at h
  simp only [hr] at h
  simp only [reduceCtorEq, and_false, false_and, or_self, if_false, or_false, and_self, if_true] at h
  obtain ⟨en, hen, h⟩ := bind_ok_iff.1 h
  obtain ⟨-, rfl⟩ := mkSpan_ok.1 h
  cases en with
  | none =>
    exfalso
    unfold Env.effEnd at hen
    split at hen
    · cases hen
    · split at hen
      · rename_i hx; exact hb hx
      · split at hen
        · cases hen
        · rename_i hx
          unfold Env.effDur at hx
          split at hx
          · cases hx
          · rename_i hx'; exact hd hx'
        · split at hen <;> cases hen
  | some en =>
    refine ⟨by simp [Span.endRepr], sameOrder rfl rfl ?_⟩
    rw [hen]
    simp [Env.effEnd]

/-- C28, from end to duration: no comparison changes, if the end is in the zone of the begin and not
in the second pass of an hour that occurs twice.  Missing: these cases, see `C28_fails`. -/
theorem C28_to_duration_partial (e : Env) (s : Span) (b en : DT) (hw : WellFormed e s) (hr : s.InRange)
    (hb : s.begin? = some b) (he : s.end? = some en) (hz : en.tz = b.tz) (hf : en.fold = false)
    (hp : s.prec = .day ∨ s.prec = .second) :
    ∃ t, e.convertEnd s .duration = .ok t ∧ t.endRepr = .duration ∧ e.SameOrder s t := by
  obtain ⟨t, h1, h2, h3, -, h5, -⟩ := C23_to_duration_partial e s b en hw hr hb he hz hp
  refine ⟨t, h1, h3, sameOrder ?_ ?_ ?_⟩
  · rw [h2]
  · rw [h2]
  · rw [h5]
    rcases en with ⟨w, f, z⟩
    dsimp only at hf
    subst hf
    simp [Env.effEnd, he]

/-- C28 is false in general: a span ending in the second pass of an hour that occurs twice, and another
span with the same begin. -/
theorem C28_fails : ∃ s t o : Span, dstEnv.mkSpan s = .ok s ∧ dstEnv.mkSpan o = .ok o ∧
    dstEnv.convertEnd s .duration = .ok t ∧
    dstEnv.spanLt 0 s o = .ok false ∧ dstEnv.spanLt 0 t o = .ok true :=
  ⟨⟨.event, some ⟨dayNo 737722, false, some (.zone 1)⟩,
      some ⟨dayNo 737722 + hours 2 + 1800000000, true, some (.zone 1)⟩, none, .second⟩,
    ⟨.event, some ⟨dayNo 737722, false, some (.zone 1)⟩, none, some (hours 2 + 1800000000), .second⟩,
    ⟨.event, some ⟨dayNo 737722, false, some (.zone 1)⟩,
      some ⟨dayNo 737722 + hours 1, false, some (.zone 0)⟩, none, .second⟩, by decide +kernel⟩

/-! ### C29: missing times sort first -/

/-- C29, begin: a span without begin is before every span that begins after 1900-01-01 local time.
Missing: earlier spans, see `C29_fails`. -/
theorem C29_begin_partial (e : Env) (hl : e.Lawful (.loc 0)) (k : Nat) (a b : Span) (x : DT)
    (ha : a.Fresh k) (hb : b.Fresh k) (sa : e.Sortable a) (sb : e.Sortable b)
    (ca : a.cls ≠ .todo) (cb : b.cls ≠ .todo) (na : a.begin? = none) (nb : b.begin? = some x)
    (hx : e.instant ⟨dayNo 693595, false, none⟩ < e.instant x) : e.spanLt k a b = .ok true := by
  obtain ⟨p, hp⟩ := sortable_comparable sa
  obtain ⟨q, hq⟩ := sortable_comparable sb
  rw [spanLt_eq ha hb hp hq]
  have h1 : p.1 = cmpDefault := by
    obtain ⟨h, -⟩ := hp
    unfold Env.keyOf at h
    split at h
    · cases h
    · injection h with h; rw [if_neg ca] at h; rw [← h, na]; rfl
  have h2 : q.1 = x := by
    obtain ⟨h, -⟩ := hq
    unfold Env.keyOf at h
    split at h
    · cases h
    · injection h with h; rw [if_neg cb] at h; rw [← h, nb]; rfl
  have h3 : e.nsub p.1 q.1 < 0 := by
    rw [h1, h2]
    unfold Env.nsub
    rw [if_neg (by simp [cmpDefault]), localize_instant hl, localize_instant hl]
    have : e.instant cmpDefault = e.instant ⟨dayNo 693595, false, none⟩ := rfl
    omega
  have h4 : e.neq p.1 q.1 = false := by
    cases h : e.neq p.1 q.1 with
    | false => rfl
    | true => have := neq_nsub h; omega
  unfold Env.nop
  rw [h4]
  simp [h3]

/-- C29, end: of two spans with the same begin in the same zone, one without any end is before one that
ends after 1900-01-01 local time. -/
theorem C29_end_partial (e : Env) (hl : e.Lawful (.loc 0)) (k : Nat) (a b : Span) (x y : DT)
    (ha : a.Fresh k) (hb : b.Fresh k) (sa : e.Sortable a) (sb : e.Sortable b)
    (ca : a.cls = .plain) (cb : b.cls ≠ .todo) (na : a.begin? = some x) (nb : b.begin? = some x)
    (hu : e.Unambiguous x)
    (ea : a.end? = none) (da : a.dur? = none) (eb : e.effEnd b = .ok (some y))
    (hy : e.instant ⟨dayNo 693595, false, none⟩ < e.instant y) : e.spanLt k a b = .ok true := by
  obtain ⟨p, hp⟩ := sortable_comparable sa
  obtain ⟨q, hq⟩ := sortable_comparable sb
  rw [spanLt_eq ha hb hp hq]
  have h1 : p = (x, cmpDefault) := by
    obtain ⟨h, -⟩ := hp
    have : e.effEnd a = .ok none := by
      unfold Env.effEnd Env.effDur
      rw [ea, na, da, ca]
    unfold Env.keyOf at h
    rw [this, na] at h
    injection h with h
    rw [← h, if_neg (by rw [ca]; simp)]; rfl
  have h2 : q = (x, y) := by
    obtain ⟨h, -⟩ := hq
    unfold Env.keyOf at h
    rw [eb, nb] at h
    injection h with h
    rw [← h, if_neg cb]; rfl
  subst h1
  subst h2
  have h3 : e.nsub cmpDefault y < 0 := by
    unfold Env.nsub
    rw [if_neg (by simp [cmpDefault]), localize_instant hl, localize_instant hl]
    have : e.instant cmpDefault = e.instant ⟨dayNo 693595, false, none⟩ := rfl
    omega
  have h4 : e.neq cmpDefault y = false := by
    cases h : e.neq cmpDefault y with
    | false => rfl
    | true => have := neq_nsub h; omega
  have h5 : e.neq x x = true := by
    unfold Env.neq
    split
    · simp
    · simp [tidy_clear hu]
  unfold Env.nop
  dsimp only
  rw [h4, h5]
  simp [h3]

/-- C29, todos: one without due is before every one that is due after 1900-01-01 local time. -/
theorem C29_due_partial (e : Env) (hl : e.Lawful (.loc 0)) (k : Nat) (a b : Span) (y : DT)
    (ha : a.Fresh k) (hb : b.Fresh k) (sa : e.Sortable a) (sb : e.Sortable b)
    (ca : a.cls = .todo) (cb : b.cls = .todo) (ea : a.end? = none) (da : a.dur? = none)
    (eb : e.effEnd b = .ok (some y))
    (hy : e.instant ⟨dayNo 693595, false, none⟩ < e.instant y) : e.spanLt k a b = .ok true := by
  obtain ⟨p, hp⟩ := sortable_comparable sa
  obtain ⟨q, hq⟩ := sortable_comparable sb
  rw [spanLt_eq ha hb hp hq]
  have h1 : p.1 = cmpDefault := by
    obtain ⟨h, -⟩ := hp
    have : e.effEnd a = .ok none := by
      unfold Env.effEnd Env.effDur
      rw [ea, da, ca]
      cases a.begin? <;> rfl
    unfold Env.keyOf at h
    rw [this] at h
    injection h with h
    rw [← h, if_pos ca]; rfl
  have h2 : q.1 = y := by
    obtain ⟨h, -⟩ := hq
    unfold Env.keyOf at h
    rw [eb] at h
    injection h with h
    rw [← h, if_pos cb]; rfl
  have h3 : e.nsub p.1 q.1 < 0 := by
    rw [h1, h2]
    unfold Env.nsub
    rw [if_neg (by simp [cmpDefault]), localize_instant hl, localize_instant hl]
    have : e.instant cmpDefault = e.instant ⟨dayNo 693595, false, none⟩ := rfl
    omega
  have h4 : e.neq p.1 q.1 = false := by
    cases h : e.neq p.1 q.1 with
    | false => rfl
    | true => have := neq_nsub h; omega
  unfold Env.nop
  rw [h4]
  simp [h3]

example : dstEnv.spanLt 0 ⟨.event, none, none, none, .second⟩ exSpan = .ok true ∧
    dstEnv.instant ⟨dayNo 693595, false, none⟩ < dstEnv.instant (exSpan.begin?.getD cmpDefault) := by
  decide +kernel

/-- C29 is false in general: a span on 1899-12-31 is before a span without begin. -/
theorem C29_fails : ∃ a b : Span, dstEnv.mkSpan a = .ok a ∧ dstEnv.mkSpan b = .ok b ∧
    a.begin? = none ∧ b.begin? ≠ none ∧ dstEnv.spanLt 0 b a = .ok true :=
  ⟨⟨.event, none, none, none, .second⟩,
    ⟨.event, some ⟨dayNo 693594, false, some (.zone 0)⟩, none, none, .second⟩, by decide +kernel⟩

/-- C29 is false for events: with the same begin, one without an end and one that ends at its begin
compare as equal. -/
theorem C29_event_fails : ∃ a b : Span, dstEnv.mkSpan a = .ok a ∧ dstEnv.mkSpan b = .ok b ∧
    a.begin? = b.begin? ∧ a.endRepr = .none ∧ b.endRepr = .end_ ∧ dstEnv.spanLt 0 a b = .ok false :=
  ⟨⟨.event, some ⟨dayNo 737511, false, some (.zone 0)⟩, none, none, .second⟩,
    ⟨.event, some ⟨dayNo 737511, false, some (.zone 0)⟩, some ⟨dayNo 737511, false, some (.zone 0)⟩,
      none, .second⟩, by decide +kernel⟩

end Ics
