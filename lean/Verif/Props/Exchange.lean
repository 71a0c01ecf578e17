import Verif.Spec.Exchange
import Verif.Props.Session

/-
C110: operations on different events and todos can be exchanged.
-/
namespace Ics

/-- Every operation on an event or todo changes the one at its place, by some function (/repo/src/ics/icalendar.py:27-32). -/
def updateAt (o : CalObj) (list : CalList) (i : Nat) (f : EntryObj → Except PyErr EntryObj) : Except PyErr CalObj :=
  match o.get list.attr with
  | .many l =>
    match l[i]? with
    | some (.comp m) => do
      let m ← f m
      .ok { o with attrs := dictSet o.attrs list.attr (.many (l.set i (.comp m))) }
    | some _ => .error .attributeError
    | none => .error .indexError
  | _ => .error .typeError

theorem op_update {L : Lib} {p : CalOp} {list : CalList} {i : Nat} (hp : p.place = some (list, i)) :
    ∃ f, ∀ o : CalObj, o.calOp L p = updateAt o list i f := by
  cases p with
  | edit e =>
    cases e with
    | change list' j chs =>
      cases hp
      exact ⟨fun m => m.changes L chs, fun o => rfl⟩
    | assign => cases hp
    | append => cases hp
    | delete => cases hp
  | times list' j cs =>
    cases hp
    exact ⟨fun m => m.timeEdits L cs, fun o => rfl⟩
  | normalize => cases hp
  | copy => cases hp
  | extra q items =>
    have hp : q = some (list, i) := hp
    subst hp
    exact ⟨fun m => .ok { m with extra := items }, fun o => rfl⟩
  | strip q a =>
    have hp : q = some (list, i) := hp
    subst hp
    exact ⟨fun m => stripExtras a m, fun o => rfl⟩

theorem update_ok {o o1 : CalObj} {list : CalList} {i : Nat} {f : EntryObj → Except PyErr EntryObj} :
    updateAt o list i f = .ok o1 ↔ ∃ l m m1, o.get list.attr = .many l ∧ l[i]? = some (.comp m) ∧ f m = .ok m1 ∧
      o1 = { o with attrs := dictSet o.attrs list.attr (.many (l.set i (.comp m1))) } := by
  constructor
  · intro h
    unfold updateAt at h
    split at h
    · rename_i l hg
      split at h
      · rename_i m hm
        obtain ⟨m1, h1, e⟩ := bind_ok_iff.1 h
        cases e
        exact ⟨l, m, m1, hg, hm, h1, rfl⟩
      · cases h
      · cases h
    · cases h
  · rintro ⟨l, m, m1, hg, hm, h1, rfl⟩
    simp only [updateAt, hg, hm, h1]
    rfl

theorem calList_other {o : CalObj} {list list' : CalList} (h : list ≠ list') {v : AttrVal EntryObj} :
    Obj.get { o with attrs := dictSet o.attrs list'.attr v } list.attr = o.get list.attr := by
  have hne : list.attr ≠ list'.attr := by
    cases list <;> cases list' <;> first | exact absurd rfl h | decide
  unfold Obj.get
  dsimp only
  rw [dictGet_set_ne _ _ hne]

/-- What is at another place stays the same. -/
theorem update_other {o c : CalObj} {list list' : CalList} {i j : Nat} (hne : (list, i) ≠ (list', j))
    {g : EntryObj → Except PyErr EntryObj} (h : updateAt o list' j g = .ok c) :
    (∃ l l', o.get list.attr = .many l ∧ c.get list.attr = .many l' ∧ l'[i]? = l[i]?) ∨ c.get list.attr = o.get list.attr := by
  obtain ⟨l, m, m1, hg, _, _, rfl⟩ := update_ok.1 h
  by_cases e : list = list'
  · subst e
    refine .inl ⟨l, _, hg, calList_got, List.getElem?_set_ne fun e => hne ?_⟩
    rw [e]
  · exact .inr (calList_other e)

/-- C110: whether an operation on one event or todo succeeds, and which exception it raises, does not depend on operations on
others that came before. -/
theorem C110_outcome (L : Lib) (o c : CalObj) (p q : CalOp) (x y : CalList × Nat) (hp : p.place = some x) (hq : q.place = some y)
    (hne : x ≠ y) (h : o.calOp L q = .ok c) (e : PyErr) : c.calOp L p = .error e ↔ o.calOp L p = .error e := by
  obtain ⟨list, i⟩ := x
  obtain ⟨list', j⟩ := y
  obtain ⟨f, hf⟩ := op_update (L := L) hp
  obtain ⟨g, hg⟩ := op_update (L := L) hq
  rw [hg] at h
  rw [hf, hf]
  rcases update_other hne h with ⟨l, l', e1, e2, e3⟩ | e1
  · unfold updateAt
    rw [e1, e2]
    dsimp only
    rw [e3]
    cases l[i]? with
    | none => exact Iff.rfl
    | some v =>
      cases v with
      | comp m =>
        dsimp only
        cases f m with
        | error e' => exact Iff.rfl
        | ok m1 => exact ⟨nofun, nofun⟩
      | _ => exact Iff.rfl
  · unfold updateAt
    rw [e1]
    cases o.get list.attr with
    | many l =>
      dsimp only
      cases l[i]? with
      | none => exact Iff.rfl
      | some v =>
        cases v with
        | comp m =>
          dsimp only
          cases f m with
          | error e' => exact Iff.rfl
          | ok m1 => exact ⟨nofun, nofun⟩
        | _ => exact Iff.rfl
    | _ => exact Iff.rfl

/-- C110: two operations on different events and todos, one after the other, can be exchanged: the other order succeeds as well
and gives the same calendar. -/
theorem C110_exchange (L : Lib) (o b : CalObj) (p q : CalOp) (x y : CalList × Nat) (hp : p.place = some x) (hq : q.place = some y)
    (hne : x ≠ y) (h : o.calOps L [p, q] = .ok b) : ∃ d, o.calOps L [q, p] = .ok d ∧ AlikeCalendar b d := by
  obtain ⟨list, i⟩ := x
  obtain ⟨list', j⟩ := y
  obtain ⟨f, hf⟩ := op_update (L := L) hp
  obtain ⟨g, hg⟩ := op_update (L := L) hq
  simp only [Obj.calOps, hf, hg, bind_ok_iff] at h
  obtain ⟨a, h1, b', h2, e⟩ := h
  cases e
  obtain ⟨l, m, m1, e1, e2, e3, rfl⟩ := update_ok.1 h1
  obtain ⟨l2, n, n1, e4, e5, e6, rfl⟩ := update_ok.1 h2
  have run : ∀ c d : CalObj, updateAt o list' j g = .ok c → updateAt c list i f = .ok d → o.calOps L [q, p] = .ok d := by
    intro c d hc hd
    simp only [Obj.calOps, hf, hg, hc]
    show (updateAt c list i f >>= _) = _
    rw [hd]
    rfl
  by_cases e : list = list'
  · subst e
    have hij : i ≠ j := fun e => hne (by rw [e])
    rw [calList_got] at e4
    cases e4
    rw [List.getElem?_set_ne hij] at e5
    refine ⟨_, run _ _ (update_ok.2 ⟨l, n, n1, e1, e5, e6, rfl⟩) (update_ok.2 ⟨_, m, m1, calList_got, ?_, e3, rfl⟩), rfl, rfl, rfl, rfl,
      fun k => ?_⟩
    · rw [List.getElem?_set_ne (Ne.symm hij)]
      exact e2
    · by_cases hk : k = list.attr
      · subst hk
        unfold Obj.get
        dsimp only
        rw [dictGet_set, dictGet_set, List.set_comm _ _ hij]
      · unfold Obj.get
        dsimp only
        rw [dictGet_set_ne _ _ hk, dictGet_set_ne _ _ hk, dictGet_set_ne _ _ hk, dictGet_set_ne _ _ hk]
  · rw [calList_other (Ne.symm e)] at e4
    refine ⟨_, run _ _ (update_ok.2 ⟨l2, n, n1, e4, e5, e6, rfl⟩) (update_ok.2 ⟨l, m, m1, (calList_other e).trans e1, e2, e3, rfl⟩),
      rfl, rfl, rfl, rfl, fun k => ?_⟩
    have hne' : list.attr ≠ list'.attr := by
      cases list <;> cases list' <;> first | exact absurd rfl e | decide
    unfold Obj.get
    dsimp only
    by_cases hk : k = list.attr
    · subst hk
      rw [dictGet_set_ne _ _ hne', dictGet_set, dictGet_set]
    · by_cases hk' : k = list'.attr
      · subst hk'
        rw [dictGet_set, dictGet_set_ne _ _ hk, dictGet_set]
      · rw [dictGet_set_ne _ _ hk', dictGet_set_ne _ _ hk, dictGet_set_ne _ _ hk, dictGet_set_ne _ _ hk']

theorem alike_refl (a : CalObj) : AlikeCalendar a a := ⟨rfl, rfl, rfl, rfl, fun _ => rfl⟩

theorem AlikeCalendar.trans {a b c : CalObj} (h : AlikeCalendar a b) (k : AlikeCalendar b c) : AlikeCalendar a c :=
  ⟨h.cls.trans k.cls, h.extraName.trans k.extraName, h.extra.trans k.extra, h.extraParams.trans k.extraParams,
    fun x => (h.attrs x).trans (k.attrs x)⟩

/-- Operations do the same to calendars that cannot be told apart. -/
theorem alike_op {L : Lib} {a b a1 : CalObj} (h : AlikeCalendar a b) {p : CalOp} {x : CalList × Nat} (hp : p.place = some x)
    (h1 : a.calOp L p = .ok a1) : ∃ b1, b.calOp L p = .ok b1 ∧ AlikeCalendar a1 b1 := by
  obtain ⟨list, i⟩ := x
  obtain ⟨f, hf⟩ := op_update (L := L) hp
  rw [hf] at h1
  obtain ⟨l, m, m1, e1, e2, e3, rfl⟩ := update_ok.1 h1
  refine ⟨_, (hf b).trans (update_ok.2 ⟨l, m, m1, (h.attrs _).symm.trans e1, e2, e3, rfl⟩), h.cls, h.extraName, h.extra, h.extraParams,
    fun k => ?_⟩
  by_cases hk : k = list.attr
  · rw [hk, calList_got, calList_got]
  · have := h.attrs k
    unfold Obj.get at this ⊢
    dsimp only
    rw [dictGet_set_ne _ _ hk, dictGet_set_ne _ _ hk]
    exact this

theorem alike_ops {L : Lib} {ps : List CalOp} {a b a1 : CalObj} (h : AlikeCalendar a b) (hp : ∀ p ∈ ps, p.place.isSome = true)
    (h1 : a.calOps L ps = .ok a1) : ∃ b1, b.calOps L ps = .ok b1 ∧ AlikeCalendar a1 b1 := by
  induction ps generalizing a b with
  | nil =>
    cases h1
    exact ⟨b, rfl, h⟩
  | cons p ps ih =>
    rw [Obj.calOps] at h1
    obtain ⟨a', k1, k2⟩ := bind_ok_iff.1 h1
    obtain ⟨x, hx⟩ := Option.isSome_iff_exists.1 (hp p List.mem_cons_self)
    obtain ⟨b', k3, k4⟩ := alike_op h hx k1
    obtain ⟨b1, k5, k6⟩ := ih k4 (fun p hm => hp p (List.mem_cons_of_mem _ hm)) k2
    refine ⟨b1, ?_, k6⟩
    rw [Obj.calOps, k3]
    exact k5

/-- One operation after others at other places. -/
theorem move_op {L : Lib} {q : CalOp} {y : CalList × Nat} (hq : q.place = some y) {ps rest : List CalOp} {o b : CalObj}
    (hp : ∀ p ∈ ps, ∃ x, p.place = some x ∧ x ≠ y) (hr : ∀ p ∈ rest, p.place.isSome = true)
    (h : o.calOps L (q :: (ps ++ rest)) = .ok b) : ∃ d, o.calOps L (ps ++ q :: rest) = .ok d ∧ AlikeCalendar b d := by
  induction ps generalizing o b with
  | nil => exact ⟨b, h, alike_refl b⟩
  | cons p ps ih =>
    obtain ⟨x, hx, hne⟩ := hp p List.mem_cons_self
    have h' : o.calOps L ([q, p] ++ (ps ++ rest)) = .ok b := h
    have split2 : ∀ (u v : CalOp) (c : CalObj), o.calOps L ([u, v] ++ (ps ++ rest)) = .ok c →
        ∃ c1, o.calOps L [u, v] = .ok c1 ∧ c1.calOps L (ps ++ rest) = .ok c := by
      intro u v c hc
      simp only [List.cons_append, List.nil_append, Obj.calOps, bind_ok_iff] at hc
      obtain ⟨c0, k1, c1, k2, k3⟩ := hc
      refine ⟨c1, ?_, k3⟩
      simp only [Obj.calOps, bind_ok_iff]
      exact ⟨c0, k1, c1, k2, rfl⟩
    obtain ⟨c1, k1, k2⟩ := split2 q p b h'
    obtain ⟨d1, k3, k4⟩ := C110_exchange L o c1 q p y x hq hx (Ne.symm hne) k1
    have all : ∀ r ∈ ps ++ rest, r.place.isSome = true := by
      intro r hm
      rcases List.mem_append.1 hm with hm | hm
      · obtain ⟨x, hx, _⟩ := hp r (List.mem_cons_of_mem _ hm)
        rw [hx]
        rfl
      · exact hr r hm
    obtain ⟨b1, k5, k6⟩ := alike_ops k4 all k2
    simp only [Obj.calOps, bind_ok_iff] at k3
    obtain ⟨o1, k7, o2, k8, e⟩ := k3
    cases e
    obtain ⟨d, k9, k10⟩ := ih (o := o1) (b := b1) (fun p hm => hp p (List.mem_cons_of_mem _ hm)) (by
      rw [Obj.calOps, k8]
      exact k5)
    refine ⟨d, ?_, k6.trans k10⟩
    rw [List.cons_append, Obj.calOps, k7]
    exact k9

/-- C110: in any sequence of operations on events and todos, all that is done to one of them can be done first, and then all that
is done to the others, each in the order in which it was: this succeeds as well, and the result is the same. -/
theorem C110_first (L : Lib) (x : CalList × Nat) (rs : List CalOp) (o b : CalObj) (hr : ∀ r ∈ rs, r.place.isSome = true)
    (h : o.calOps L rs = .ok b) :
    ∃ d, o.calOps L (rs.filter (fun r => decide (r.place = some x)) ++ rs.filter (fun r => !decide (r.place = some x))) = .ok d ∧
      AlikeCalendar b d := by
  induction rs generalizing o b with
  | nil => exact ⟨b, h, alike_refl b⟩
  | cons r rs ih =>
    have hrs : ∀ p ∈ rs, p.place.isSome = true := fun p hm => hr p (List.mem_cons_of_mem _ hm)
    rw [Obj.calOps] at h
    obtain ⟨a, k1, k2⟩ := bind_ok_iff.1 h
    obtain ⟨d, k3, k4⟩ := ih a b hrs k2
    have k5 : o.calOps L (r :: (rs.filter (fun r => decide (r.place = some x)) ++
        rs.filter (fun r => !decide (r.place = some x)))) = .ok d := by
      rw [Obj.calOps, k1]
      exact k3
    by_cases hx : r.place = some x
    · refine ⟨d, ?_, k4⟩
      rw [List.filter_cons_of_pos (by simpa using hx), List.filter_cons_of_neg (by simpa using hx)]
      exact k5
    · obtain ⟨y, hy⟩ := Option.isSome_iff_exists.1 (hr r List.mem_cons_self)
      obtain ⟨d', k6, k7⟩ := move_op (L := L) hy (fun p hp => ⟨x, by simpa using (List.mem_filter.1 hp).2, fun e => hx (by rw [hy, e])⟩)
        (fun p hp => hrs p (List.mem_filter.1 hp).1) k5
      refine ⟨d', ?_, k4.trans k7⟩
      rw [List.filter_cons_of_neg (by simpa using hx), List.filter_cons_of_pos (by simpa using hx)]
      exact k6

/-- C110: operations on the same event or todo cannot be exchanged in general: the last assignment of unknown properties
is the one that counts. -/
theorem C110_same_place_fails : ∃ (o b d : CalObj) (p q : CalOp), p.place = q.place ∧ p.place = some (.events, 0) ∧
    o.calOps exLib [p, q] = .ok b ∧ o.calOps exLib [q, p] = .ok d ∧ ¬ AlikeCalendar b d := by
  refine ⟨exCalRep, { exCalRep with attrs := dictSet exCalRep.attrs "events".toList (.many [.comp { exEventObj with extra := [] },
      .comp exEventObj]) }, { exCalRep with attrs := dictSet exCalRep.attrs "events".toList (.many [.comp { exEventObj with
      extra := [exLine "X-A" "1"] }, .comp exEventObj]) }, .extra (some (.events, 0)) [exLine "X-A" "1"],
    .extra (some (.events, 0)) [], rfl, rfl, rfl, rfl, fun h => ?_⟩
  have := h.attrs "events".toList
  have h2 : AttrVal.many [Val.comp { exEventObj with extra := [] }, .comp exEventObj] =
      AttrVal.many [Val.comp { exEventObj with extra := [exLine "X-A" "1"] }, .comp exEventObj] := this
  injection h2 with h2
  injection h2 with h2
  injection h2 with h2
  have h3 : ([] : List Item) = [exLine "X-A" "1"] := congrArg (fun x : EntryObj => x.extra) h2
  cases h3

/-- `C110_exchange`, `C110_first` and `C110_outcome` apply to the calendar of the examples, whose two events are changed. -/
example : (exCalRep.calOps exLib [.extra (some (.events, 0)) [exLine "X-A" "1"], .strip (some (.events, 1)) { allExtras := true }]).isOk =
    true ∧ (CalOp.extra (some (.events, 0)) [exLine "X-A" "1"]).place = some (.events, 0) ∧
    (CalOp.strip (some (.events, 1)) { allExtras := true }).place = some (.events, 1) ∧ ((CalList.events, 0) ≠ (CalList.events, 1)) := by
  refine ⟨by decide +kernel, rfl, rfl, by decide⟩

end Ics
