import Verif.Spec.Shared
import Verif.Proofs.Timespan

/-
C108: what a component and its clone have in common.
-/
namespace Ics

variable {α : Type}

/-- The lists of two components are there and none of them is used twice. -/
structure Apart (m : Mem α) (c d : HComp α) : Prop where
  thereL : ∀ k id, c.slots k = some (.list id) → id < m.next
  thereR : ∀ k id, d.slots k = some (.list id) → id < m.next
  distinctL : ∀ k k' id, c.slots k = some (.list id) → c.slots k' = some (.list id) → k = k'
  distinctR : ∀ k k' id, d.slots k = some (.list id) → d.slots k' = some (.list id) → k = k'
  apart : ∀ k k' id, c.slots k = some (.list id) → d.slots k' = some (.list id) → False

theorem Apart.symm {m : Mem α} {c d : HComp α} (h : Apart m c d) : Apart m d c :=
  ⟨h.thereR, h.thereL, h.distinctR, h.distinctL, fun k k' id h1 h2 => h.apart k' k id h2 h1⟩

/-- One operation on one of them. -/
theorem step_apart {m m1 : Mem α} {c c1 d : HComp α} {op : HOp α} (h : Apart m c d) (hs : c.step m op = .ok (c1, m1)) :
    Apart m1 c1 d ∧ c1.seen m1 = HOp.on (c.seen m) op ∧ d.seen m1 = d.seen m := by
  cases op with
  | mutate k f =>
    simp only [HComp.step] at hs
    split at hs
    · rename_i id hk
      cases hs
      refine ⟨⟨h.thereL, h.thereR, h.distinctL, h.distinctR, h.apart⟩, ?_, ?_⟩
      · funext j
        unfold HComp.seen HOp.on
        dsimp only
        by_cases hj : j = k
        · subst hj
          rw [hk]
          simp
        · rw [if_neg hj]
          cases hc : c.slots j with
          | none => rfl
          | some x =>
            cases x with
            | val a => rfl
            | list id' =>
              dsimp only
              rw [if_neg]
              rintro rfl
              exact hj (h.distinctL _ _ _ hc hk)
      · funext j
        unfold HComp.seen
        dsimp only
        cases hd : d.slots j with
        | none => rfl
        | some x =>
          cases x with
          | val a => rfl
          | list id' =>
            dsimp only
            rw [if_neg]
            rintro rfl
            exact h.apart _ _ _ hk hd
    · cases hs
  | assign k a =>
    simp only [HComp.step] at hs
    split at hs
    · cases hs
      have old : ∀ j id, (if j = k then some (HField.val a) else c.slots j) = some (.list id) → c.slots j = some (.list id) := by
        intro j id hj
        split at hj
        · cases hj
        · exact hj
      refine ⟨⟨fun j id hj => h.thereL j id (old j id hj), h.thereR,
        fun j j' id h1 h2 => h.distinctL j j' id (old j id h1) (old j' id h2), h.distinctR,
        fun j j' id h1 h2 => h.apart j j' id (old j id h1) h2⟩, ?_, rfl⟩
      funext j
      unfold HComp.seen HOp.on
      dsimp only
      by_cases hj : j = k
      · simp [hj]
      · simp [hj]
    · cases hs
  | assignList k l =>
    simp only [HComp.step] at hs
    split at hs
    · cases hs
      have old : ∀ j id, (if j = k then some (HField.list m.next) else c.slots j) = some (.list id) →
          (j = k ∧ id = m.next) ∨ c.slots j = some (.list id) := by
        intro j id hj
        split at hj
        · cases hj
          exact .inl ⟨by assumption, rfl⟩
        · exact .inr hj
      refine ⟨⟨fun j id hj => ?_, fun j id hj => Nat.lt_succ_of_lt (h.thereR j id hj), fun j j' id h1 h2 => ?_, h.distinctR,
        fun j j' id h1 h2 => ?_⟩, ?_, ?_⟩
      · rcases old j id hj with ⟨_, rfl⟩ | h1
        · exact Nat.lt_succ_self _
        · exact Nat.lt_succ_of_lt (h.thereL j id h1)
      · rcases old j id h1 with ⟨e1, e2⟩ | h1 <;> rcases old j' id h2 with ⟨e3, e4⟩ | h2
        · rw [e1, e3]
        · exact absurd (h.thereL _ _ h2) (by omega)
        · exact absurd (h.thereL _ _ h1) (by omega)
        · exact h.distinctL _ _ _ h1 h2
      · rcases old j id h1 with ⟨e1, e2⟩ | h1
        · exact absurd (h.thereR _ _ h2) (by omega)
        · exact h.apart _ _ _ h1 h2
      · funext j
        unfold HComp.seen HOp.on
        dsimp only
        by_cases hj : j = k
        · simp [hj]
        · rw [if_neg hj, if_neg hj]
          cases hc : c.slots j with
          | none => rfl
          | some x =>
            cases x with
            | val a => rfl
            | list id' =>
              dsimp only
              rw [if_neg]
              have := h.thereL _ _ hc
              omega
      · funext j
        unfold HComp.seen
        dsimp only
        cases hd : d.slots j with
        | none => rfl
        | some x =>
          cases x with
          | val a => rfl
          | list id' =>
            dsimp only
            rw [if_neg]
            have := h.thereR _ _ hd
            omega
    · cases hs

theorem run_apart {ops : List (Bool × HOp α)} {m m1 : Mem α} {c c1 d d1 : HComp α} (h : Apart m c d)
    (hr : runBoth m c d ops = .ok (m1, c1, d1)) :
    c1.seen m1 = HOp.ons false (c.seen m) ops ∧ d1.seen m1 = HOp.ons true (d.seen m) ops := by
  induction ops generalizing m c d with
  | nil => cases hr; exact ⟨rfl, rfl⟩
  | cons p ops ih =>
    obtain ⟨b, op⟩ := p
    cases b with
    | false =>
      rw [runBoth] at hr
      obtain ⟨⟨c', m'⟩, h1, h2⟩ := bind_ok_iff.1 hr
      obtain ⟨k1, k2, k3⟩ := step_apart h h1
      obtain ⟨q1, q2⟩ := ih k1 h2
      rw [q1, q2, k2, k3]
      exact ⟨rfl, rfl⟩
    | true =>
      rw [runBoth] at hr
      obtain ⟨⟨d', m'⟩, h1, h2⟩ := bind_ok_iff.1 hr
      obtain ⟨k1, k2, k3⟩ := step_apart h.symm h1
      obtain ⟨q1, q2⟩ := ih k1.symm h2
      rw [q1, q2, k2, k3]
      exact ⟨rfl, rfl⟩

/-- All lists but those of e-mail alarms are copied. -/
theorem copies_lists {c : Cls} (h : c ≠ .emailAlarm) : ∀ k ∈ (listAttrs c ++ memberAttrs c).map String.toList,
    c.copies k = true ∧ k ∈ c.attrNames := by
  cases c <;> first | exact absurd rfl h | decide +kernel

/-- After cloning. -/
theorem clone_apart {m : Mem α} {c : HComp α} (h : c.Own m) (hc : c.cls ≠ .emailAlarm) :
    Apart (c.clone m).2 c (c.clone m).1 ∧ c.seen (c.clone m).2 = c.seen m ∧ (c.clone m).1.seen (c.clone m).2 = c.seen m := by
  have slot : ∀ k id, (c.clone m).1.slots k = some (.list id) →
      id = m.next + c.cls.attrNames.idxOf k ∧ k ∈ c.cls.attrNames ∧ ∃ id', c.slots k = some (.list id') := by
    intro k id hk
    unfold HComp.clone at hk
    dsimp only at hk
    split at hk
    · rename_i id' hs
      obtain ⟨e1, e2⟩ := copies_lists hc k (h.lists k id' hs)
      rw [if_pos e1] at hk
      cases hk
      exact ⟨rfl, e2, id', hs⟩
    · rename_i hs
      exact absurd hk (fun e => hs id e)
  have hnext : (c.clone m).2.next = m.next + c.cls.attrNames.length := rfl
  have hold : ∀ i, i < m.next → (c.clone m).2.lists i = m.lists i := by
    intro i hi
    unfold HComp.clone
    dsimp only
    rw [if_pos hi]
  refine ⟨⟨fun k id hk => ?_, fun k id hk => ?_, h.distinct, fun k k' id h1 h2 => ?_, fun k k' id h1 h2 => ?_⟩, ?_, ?_⟩
  · rw [hnext]
    have := h.there k id hk
    omega
  · obtain ⟨rfl, h2, _⟩ := slot k id hk
    rw [hnext]
    have := List.idxOf_lt_length_iff.2 h2
    omega
  · obtain ⟨e1, h3, _⟩ := slot k id h1
    obtain ⟨e2, h4, _⟩ := slot k' id h2
    exact (List.idxOf_inj h3).1 (by omega)
  · obtain ⟨e2, _⟩ := slot k' id h2
    have := h.there k id h1
    omega
  · funext k
    unfold HComp.seen
    cases hs : c.slots k with
    | none => rfl
    | some x =>
      cases x with
      | val a => rfl
      | list id =>
        dsimp only
        rw [hold id (h.there k id hs)]
  · funext k
    unfold HComp.seen
    cases hs : c.slots k with
    | none =>
      have : (c.clone m).1.slots k = none := by simp [HComp.clone, hs]
      rw [this]
    | some x =>
      cases x with
      | val a =>
        have : (c.clone m).1.slots k = some (.val a) := by simp [HComp.clone, hs]
        rw [this]
      | list id =>
        obtain ⟨e1, e2⟩ := copies_lists hc k (h.lists k id hs)
        have : (c.clone m).1.slots k = some (.list (m.next + c.cls.attrNames.idxOf k)) := by simp [HComp.clone, hs, e1]
        rw [this]
        dsimp only
        have hl : (c.clone m).2.lists (m.next + c.cls.attrNames.idxOf k) = m.lists id := by
          unfold HComp.clone
          dsimp only
          rw [if_neg (by omega), Nat.add_sub_cancel_left, List.getElem?_idxOf e2]
          dsimp only
          rw [hs]
        rw [hl]

/-- C108: an event, todo, calendar or alarm, unless it is an e-mail alarm, and its clone are independent: whatever is done to
the two afterwards, in any order, what one sees of each is what its own operations make of what one saw of the original
when it was cloned.

Missing for the full claim: e-mail alarms, see `C108_email_fails`. -/
theorem C108_independent_partial (m : Mem α) (c : HComp α) (h : c.Own m) (hc : c.cls ≠ .emailAlarm)
    (ops : List (Bool × HOp α)) (m1 : Mem α) (c1 d1 : HComp α)
    (hr : runBoth (c.clone m).2 c (c.clone m).1 ops = .ok (m1, c1, d1)) :
    c1.seen m1 = HOp.ons false (c.seen m) ops ∧ d1.seen m1 = HOp.ons true (c.seen m) ops := by
  obtain ⟨h1, h2, h3⟩ := clone_apart h hc
  have := run_apart h1 hr
  rwa [h2, h3] at this

/-- C108 fails for e-mail alarms: what is added to the attendees or attachments of the clone is added to those of the original
as well. -/
theorem C108_email_fails (m : Mem α) (c : HComp α) (h : c.Own m) (hc : c.cls = .emailAlarm) (k : String)
    (hk : k ∈ listAttrs .emailAlarm) (l : List α) (hl : c.seen m k.toList = some (.list l)) (x : α) :
    ∃ m1 d1, runBoth (c.clone m).2 c (c.clone m).1 [(true, .mutate k.toList (· ++ [x]))] = .ok (m1, c, d1) ∧
      c.seen m1 k.toList = some (.list (l ++ [x])) := by
  obtain ⟨id, hs, rfl⟩ : ∃ id, c.slots k.toList = some (.list id) ∧ m.lists id = l := by
    unfold HComp.seen at hl
    split at hl
    · cases hl
    · rename_i id hs
      cases hl
      exact ⟨id, hs, rfl⟩
    · cases hl
  have hn : ∀ k ∈ listAttrs .emailAlarm, Cls.emailAlarm.copies k.toList = false := by decide +kernel
  have hd : (c.clone m).1.slots k.toList = some (.list id) := by
    simp [HComp.clone, hs, hc, hn k hk]
  have hlt := h.there _ _ hs
  have ho : (c.clone m).2.lists id = m.lists id := by
    unfold HComp.clone
    dsimp only
    rw [if_pos hlt]
  refine ⟨_, _, by simp only [runBoth, HComp.step, hd]; rfl, ?_⟩
  unfold HComp.seen
  rw [hs]
  simp [ho]

/-- An event with a summary, two attendees and a category. -/
def exShared : HComp String where
  cls := .event
  slots k := if k = "summary".toList then some (.val "Party") else if k = "attendees".toList then some (.list 0)
    else if k = "categories".toList then some (.list 1) else none

def exMem : Mem String := ⟨2, fun i => if i = 0 then ["a@b", "c@d"] else ["fun"]⟩

theorem exShared_own : exShared.Own exMem := by
  have slot : ∀ k id, exShared.slots k = some (.list id) → k = "attendees".toList ∧ id = 0 ∨ k = "categories".toList ∧ id = 1 := by
    intro k id h
    unfold exShared at h
    dsimp only at h
    split at h
    · cases h
    · split at h
      · cases h; exact .inl ⟨by assumption, rfl⟩
      · split at h
        · cases h; exact .inr ⟨by assumption, rfl⟩
        · cases h
  refine ⟨fun k id h => ?_, fun k k' id h1 h2 => ?_, fun k id h => ?_⟩
  · rcases slot k id h with ⟨_, rfl⟩ | ⟨_, rfl⟩ <;> decide
  · rcases slot k id h1 with ⟨e1, e2⟩ | ⟨e1, e2⟩ <;> rcases slot k' id h2 with ⟨e3, e4⟩ | ⟨e3, e4⟩
    · rw [e1, e3]
    · omega
    · omega
    · rw [e1, e3]
  · rcases slot k id h with ⟨rfl, _⟩ | ⟨rfl, _⟩ <;> decide

/-- `C108_independent_partial` applies: an attendee is added to the clone, and the original gets another summary. -/
example : ∃ m1 c1 d1, runBoth (exShared.clone exMem).2 exShared (exShared.clone exMem).1
      [(true, .mutate "attendees".toList (· ++ ["e@f"])), (false, .assign "summary".toList "Wake")] = .ok (m1, c1, d1) ∧
    c1.seen m1 "attendees".toList = some (.list ["a@b", "c@d"]) ∧ c1.seen m1 "summary".toList = some (.val "Wake") ∧
    d1.seen m1 "attendees".toList = some (.list ["a@b", "c@d", "e@f"]) ∧ d1.seen m1 "summary".toList = some (.val "Party") := by
  refine ⟨_, _, _, rfl, ?_⟩
  have := C108_independent_partial exMem exShared exShared_own (by decide)
    [(true, .mutate "attendees".toList (· ++ ["e@f"])), (false, .assign "summary".toList "Wake")] _ _ _ rfl
  rw [this.1, this.2]
  decide +kernel

/-- `C108_email_fails` applies to the same as an e-mail alarm without categories. -/
example : ∃ m1 d1, runBoth (HComp.clone exMem ⟨.emailAlarm, fun k => if k = "attendees".toList then some (.list 0) else none⟩).2
      ⟨.emailAlarm, fun k => if k = "attendees".toList then some (.list 0) else none⟩
      (HComp.clone exMem ⟨.emailAlarm, fun k => if k = "attendees".toList then some (.list 0) else none⟩).1
      [(true, .mutate "attendees".toList (· ++ ["e@f"]))] =
        .ok (m1, ⟨.emailAlarm, fun k => if k = "attendees".toList then some (.list 0) else none⟩, d1) ∧
      HComp.seen ⟨.emailAlarm, fun k => if k = "attendees".toList then some (.list 0) else none⟩ m1 "attendees".toList =
        some (.list (["a@b", "c@d"] ++ ["e@f"])) := by
  refine C108_email_fails exMem ⟨.emailAlarm, fun k => if k = "attendees".toList then some (.list 0) else none⟩
    ⟨fun k id h => ?_, fun k k' id h1 h2 => ?_, fun k id h => ?_⟩ rfl "attendees" (by decide) _ (by decide) "e@f"
  · dsimp only at h
    split at h
    · cases h; decide
    · cases h
  · dsimp only at h1 h2
    split at h1
    · split at h2
      · rename_i e1 e2
        rw [e1, e2]
      · cases h2
    · cases h1
  · dsimp only at h
    split at h
    · rename_i e
      rw [e]
      decide
    · cases h

end Ics
