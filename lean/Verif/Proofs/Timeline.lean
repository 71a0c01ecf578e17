import Verif.Spec.Timeline
import Verif.Proofs.Heapq
import Verif.Props.Queries

/-
Lemmas about the timeline.
-/
namespace Ics

theorem convertOpt_isNone {e : Env} {tz : Option Tz} {d r : Option DT} (h : e.convertOpt d tz = .ok r) :
    (r = none ↔ d = none) := by
  rcases convertOpt_ok h with ⟨h1, h2⟩ | ⟨a, y, h1, h2, -⟩ <;> simp [h1, h2]

theorem timelineSpan_none {e : Env} {n : Option Normalization} {s t : Span}
    (h : e.timelineSpan n s = .ok t) :
    (t.begin? = none ↔ s.begin? = none) ∧ (t.end? = none ↔ s.end? = none) := by
  unfold Env.timelineSpan at h
  split at h
  · injection h with h; subst h; exact ⟨Iff.rfl, Iff.rfl⟩
  · unfold Env.normalizeSpan at h
    split at h
    · injection h with h; subst h; exact ⟨Iff.rfl, Iff.rfl⟩
    · unfold Env.replaceTimezone at h
      split at h
      · cases h
      · obtain ⟨-, rfl⟩ := mkSpan_ok.1 h; simp
    · obtain ⟨hd, b, en, hb, he, hm⟩ := convertTimezone_ok h
      obtain ⟨-, rfl⟩ := mkSpan_ok.1 hm
      exact ⟨convertOpt_isNone hb, convertOpt_isNone he⟩

theorem items_ok {e : Env} {n : Option Normalization} (evs : List TEvent) (its : List TItem)
    (h : e.items n evs = .ok its) :
    its.map Prod.snd = evs.filter (fun x => x.entry.timespan.truthy) ∧
    ∀ it ∈ its, e.timelineSpan n it.2.entry.timespan = .ok it.1 := by
  induction evs generalizing its with
  | nil => injection h with h; subst h; simp
  | cons x xs ih =>
    obtain ⟨s, hs, h⟩ := bind_ok_iff.1 h
    obtain ⟨rest, hr, h⟩ := bind_ok_iff.1 h
    injection h with h
    obtain ⟨h1, h2⟩ := ih rest hr
    have ht : s.truthy = x.entry.timespan.truthy := by
      obtain ⟨a, b⟩ := timelineSpan_none hs
      unfold Span.truthy
      cases h3 : s.begin? <;> cases h4 : x.entry.timespan.begin? <;> cases h5 : s.end? <;>
        cases h6 : x.entry.timespan.end? <;> simp_all
    rw [ht] at h
    by_cases c : x.entry.timespan.truthy = true
    · rw [if_pos c] at h
      subst h
      refine ⟨by simp [c, h1], ?_⟩
      intro it hit
      rcases List.mem_cons.1 hit with rfl | hit
      · exact hs
      · exact h2 it hit
    · rw [if_neg c] at h
      subst h
      exact ⟨by simp [c, h1], h2⟩

theorem iterator_perm {e : Env} {k : Nat} {n : Option Normalization} {evs : List TEvent}
    {its : List TItem} (h : e.iterator k n evs = .ok its) :
    ∃ l, e.items n evs = .ok l ∧ its.Perm l := by
  obtain ⟨l, hl, h⟩ := bind_ok_iff.1 h
  obtain ⟨hp, hh, h⟩ := bind_ok_iff.1 h
  exact ⟨l, hl, (popAll_perm _ _ _ (Nat.le_refl _) h).trans (heapify_perm hh)⟩

theorem iterator_sorted {e : Env} {k : Nat} {n : Option Normalization} {evs : List TEvent}
    {its l : List TItem} {A : TItem → Prop} {le : TItem → TItem → Prop} (ha : Agrees (e.itemLt k) A le)
    (hl : e.items n evs = .ok l) (hA : ∀ it ∈ l, A it)
    (h : e.iterator k n evs = .ok its) : its.Pairwise le := by
  obtain ⟨l', hl', h⟩ := bind_ok_iff.1 h
  rw [hl] at hl'; injection hl' with hl'; subst hl'
  obtain ⟨hp, hh, h⟩ := bind_ok_iff.1 h
  have hA' : ∀ it ∈ hp, A it := fun it hit => hA it ((heapify_perm hh).subset hit)
  exact popAll_sorted ha _ _ _ hA' (Nat.le_refl _) (heapify_heap ha hA hh) h

theorem eq_instant {e : Env} {T : DT → Prop} (ht : e.Tidy T) (hn : e.NaiveClear T) {a b : DT}
    (ha : T a) (hb : T b) (h : e.eq a b = true) : e.instant a = e.instant b := by
  by_cases hz : a.tz = b.tz
  · rw [e.eq_sameTz hz, decide_eq_true_iff] at h
    by_cases ha0 : a.tz = none
    · have h1 := hn a ha ha0
      have hb0 : b.tz = none := by rw [← hz]; exact ha0
      unfold Env.instant
      rw [ha0, hb0]
      dsimp only
      rw [← h]
      have : ∀ f, e.sysOff a.wall f = e.sysOff a.wall false := by
        intro f; cases f
        · rfl
        · exact h1
      rw [this a.fold, this b.fold]
    · exact ((ht.2 a b ha hb hz ha0).2).1 h
  · unfold Env.eq at h
    rw [if_neg hz] at h
    unfold Env.instant
    rcases a with ⟨w1, f1, _ | t1⟩ <;> rcases b with ⟨w2, f2, _ | t2⟩
    · simp at hz
    · simp at h
    · simp at h
    · dsimp only at h ⊢
      split at h
      · cases h
      · split at h
        · cases h
        · simpa using h

theorem optEq_getD {e : Env} {T : DT → Prop} (ht : e.Tidy T) (hn : e.NaiveClear T) {a b : Option DT}
    {d : DT} (ha : T (a.getD d)) (hb : T (b.getD d)) (h : e.optEq a b = true) :
    e.instant (a.getD d) = e.instant (b.getD d) := by
  cases a <;> cases b <;> simp only [Env.optEq, Bool.false_eq_true] at h
  · rfl
  · exact eq_instant ht hn ha hb h

theorem effDur_congr {e : Env} {s t : Span} (h1 : s.cls = t.cls) (h2 : s.end? = none) (h3 : t.end? = none)
    (h4 : s.dur? = t.dur?) (h5 : s.prec = t.prec) : e.effDur s = e.effDur t := by
  unfold Env.effDur Span.isAllDay
  rw [h1, h2, h3, h4, h5]

/-- Equal spans have the same place in the order. -/
theorem spanEq_key {e : Env} {T : DT → Prop} (ht : e.Tidy T) (hn : e.NaiveClear T) {s t : Span}
    {p q : DT × DT} (hp : e.Comparable s p) (hq : e.Comparable t q)
    (ts : ∀ d, e.timesOf s d → T d) (tt : ∀ d, e.timesOf t d → T d) (h : e.spanEq s t = true) :
    (s.cls ≠ .todo → e.instant p.1 = e.instant q.1) ∧
    ((s.end? = none → ∀ b b', s.begin? = some b → t.begin? = some b' → b.tz = b'.tz) →
      e.instant p.1 = e.instant q.1 ∧ e.instant p.2 = e.instant q.2) := by
  simp only [Env.spanEq, Bool.and_eq_true, decide_eq_true_iff] at h
  obtain ⟨⟨⟨⟨h1, h2⟩, h3⟩, h4⟩, h5⟩ := h
  obtain ⟨hp, -⟩ := hp
  obtain ⟨hq, -⟩ := hq
  unfold Env.keyOf at hp hq
  split at hp
  · cases hp
  rename_i en hen
  split at hq
  · cases hq
  rename_i en' hen'
  injection hp with hp
  injection hq with hq
  have hb : e.instant (s.begin?.getD cmpDefault) = e.instant (t.begin?.getD cmpDefault) :=
    optEq_getD ht hn (ts _ (Or.inl rfl)) (tt _ (Or.inl rfl)) h2
  constructor
  · intro hc
    rw [if_neg hc] at hp
    rw [← h1, if_neg hc] at hq
    subst hp; subst hq
    exact hb
  · intro hz
    have he : e.instant (en.getD cmpDefault) = e.instant (en'.getD cmpDefault) := by
      have hT := ts _ (Or.inr ⟨en, hen, rfl⟩)
      have hT' := tt _ (Or.inr ⟨en', hen', rfl⟩)
      cases hse : s.end? with
      | some x =>
        cases hte : t.end? with
        | none => rw [hse, hte] at h3; cases h3
        | some x' =>
          have a1 : en = some x := by
            unfold Env.effEnd at hen; rw [hse] at hen; injection hen with hen; exact hen.symm
          have a2 : en' = some x' := by
            unfold Env.effEnd at hen'; rw [hte] at hen'; injection hen' with hen'; exact hen'.symm
          subst a1; subst a2
          rw [hse, hte] at h3
          exact eq_instant ht hn hT hT' h3
      | none =>
        have hte : t.end? = none := by
          cases hte : t.end? with
          | none => rfl
          | some x' => rw [hse, hte] at h3; cases h3
        have hed := effDur_congr (e := e) h1 hse hte h4 h5
        have : en = en' := by
          unfold Env.effEnd at hen hen'
          rw [hse] at hen
          rw [hte, ← hed] at hen'
          cases hsb : s.begin? with
          | none =>
            have htb : t.begin? = none := by
              cases htb : t.begin? with
              | none => rfl
              | some x' => rw [hsb, htb] at h2; cases h2
            rw [hsb] at hen; rw [htb] at hen'
            injection hen with hen; injection hen' with hen'
            rw [← hen, ← hen']
          | some b =>
            cases htb : t.begin? with
            | none => rw [hsb, htb] at h2; cases h2
            | some b' =>
              have hzz := hz hse b b' hsb htb
              rw [hsb, htb] at h2
              have hw : b.wall = b'.wall := by
                have h2' : e.eq b b' = true := h2
                rw [e.eq_sameTz hzz, decide_eq_true_iff] at h2'; exact h2'
              have hadd : ∀ d, b.add d = b'.add d := by
                intro d; unfold DT.add; rw [hw, hzz]
              rw [hsb] at hen; rw [htb] at hen'
              dsimp only at hen hen'
              simp only [hadd] at hen
              rw [hen] at hen'
              injection hen'
        rw [this]
    by_cases hc : s.cls = .todo
    · rw [if_pos hc] at hp
      rw [← h1, if_pos hc] at hq
      subst hp; subst hq
      exact ⟨he, hb⟩
    · rw [if_neg hc] at hp
      rw [← h1, if_neg hc] at hq
      subst hp; subst hq
      exact ⟨hb, he⟩

theorem selectItems_ok {p : TItem → Except PyErr Bool} (its : List TItem) (r : List TEvent)
    (h : selectItems p its = .ok r) :
    r = (its.filter (fun it => decide (p it = .ok true))).map Prod.snd ∧
    ∀ it ∈ its, ∃ b, p it = .ok b := by
  induction its generalizing r with
  | nil => injection h with h; subst h; simp
  | cons it its ih =>
    obtain ⟨b, hb, h⟩ := bind_ok_iff.1 h
    obtain ⟨rest, hr, h⟩ := bind_ok_iff.1 h
    injection h with h
    obtain ⟨h1, h2⟩ := ih rest hr
    subst h
    refine ⟨?_, ?_⟩
    · cases b <;> simp [hb, h1]
    · intro x hx
      rcases List.mem_cons.1 hx with rfl | hx
      · exact ⟨b, hb⟩
      · exact h2 x hx

theorem selectItems_total {p : TItem → Except PyErr Bool} (its : List TItem)
    (h : ∀ it ∈ its, ∃ b, p it = .ok b) : ∃ r, selectItems p its = .ok r := by
  induction its with
  | nil => exact ⟨_, rfl⟩
  | cons it its ih =>
    obtain ⟨b, hb⟩ := h it (List.mem_cons_self ..)
    obtain ⟨r, hr⟩ := ih (fun x hx => h x (List.mem_cons_of_mem _ hx))
    exact ⟨_, bind_ok_iff.2 ⟨b, hb, bind_ok_iff.2 ⟨r, hr, rfl⟩⟩⟩

end Ics
