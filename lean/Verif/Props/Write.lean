import Verif.Proofs.WriteAssign
import Verif.Props.Component

/-
C82: which calendars can be written.
-/
namespace Ics

variable {σ : Type}

/-- C82: if the attributes of a calendar and everything in it are of the right types, then whatever is raised when it is
written has one of the listed reasons, and is the listed exception. -/
theorem C82_faults (L : Lib) (w : Wrap) (hw : w.ok) (o : CalObj) (ht : TypedCalendar o) (e : PyErr)
    (h : serializeCalendar L w o = .error e) : CalendarWriteFault L o e := by
  have hd := dumpCalendar_writes (L := L) ht
  unfold serializeCalendar at h
  cases hx : dumpCalendar L o with
  | error e' =>
    rw [hx] at h hd
    cases h
    exact hd.1 e rfl
  | ok i =>
    obtain ⟨name, items, rfl⟩ := hd.2 i hx
    rw [hx] at h
    obtain ⟨t, ht⟩ := serContainer_total hw false name items
    replace h : serContainer w false name items = .error e := h
    rw [ht] at h
    cases h

/-- C82: a calendar with attributes of the right types, without parameters of its own, whose numbers have at most 4300
digits, whose times are in zones with names, and whose zones can be written, can be written. -/
theorem C82_plain (L : Lib) (w : Wrap) (hw : w.ok) (o : CalObj) (ht : TypedCalendar o) (hp : PlainCalendar o)
    (hn : SmallNumbers (SmallNumbers (SmallNumbers fun m => nomatch m)) o)
    (hc : ∀ d t, CalendarWritten o d → L.dtIsUtc d = false → d.tz = some t → L.conv t ≠ .unserializable)
    (hz : ∀ z, UsesZone L o z → ∃ i, L.tzDump z = .ok i) : ∃ txt, serializeCalendar L w o = .ok txt := by
  cases h : serializeCalendar L w o with
  | ok txt => exact ⟨txt, rfl⟩
  | error e =>
    exfalso
    have key : ∀ {τ : Type} {N P : τ → Prop} {Q : τ → PyErr → Prop} {D : τ → DT → Prop} {x : Obj τ} {e : PyErr},
        NoParams N x → SmallNumbers P x →
        (∀ d t, WrittenTime D x d → L.dtIsUtc d = false → d.tz = some t → L.conv t ≠ .unserializable) →
        (∀ m e, MemberOf x m → N m → P m → (∀ d, D m d → WrittenTime D x d) → ¬ Q m e) → ¬ WriteFault L Q x e := by
      intro τ N P Q D x e h1 h2 h3 h4 hf
      have none : ∀ k, dictGet? x.extraParams k = .none := by rw [h1.1]; exact fun _ => rfl
      have some : ∀ k, ¬ SomeParams x k := by
        rintro k (⟨p, -, hk⟩ | ⟨p, -, hk⟩) <;> (rw [none] at hk; cases hk)
      have listed : ∀ k, ¬ ListedParams x k := by
        rintro k ⟨p, ps, hk⟩
        rw [none] at hk
        cases hk
      cases hf with
      | number hr hv hb => exact Nat.not_le.2 (h2.1 _ _ _ hr hv) hb
      | zone hd hu ht hc =>
        refine h3 _ _ ?_ hu ht hc
        cases hd with
        | attr h1 h2 => exact .attr h1 h2
        | begin h1 h2 h3 h4 => exact .begin h1 h2 h3 h4
        | «end» h1 h2 h3 h4 h5 => exact .end h1 h2 h3 h4 h5
        | member _ h => exact h.elim
      | params _ _ hk => rw [none] at hk; cases hk
      | beginParams _ _ _ hk => exact listed _ hk
      | durationParams _ _ _ hk => exact listed _ hk
      | endParams _ _ _ _ hk => exact listed _ hk
      | listParams _ _ hk _ => rw [none] at hk; cases hk
      | actionParams _ hk => rw [none] at hk; cases hk
      | memberParams _ hk => exact some _ hk
      | member hm hq => exact h4 _ _ hm (h1.2 _ hm) (h2.2 _ hm) (fun d hd => .member hm hd) hq
    cases C82_faults L w hw o ht e h with
    | zone hu hd =>
      obtain ⟨i, hi⟩ := hz _ hu
      rw [hi] at hd
      cases hd
    | own hf =>
      refine key (D := EntryWritten) hp hn hc (fun m e hm hN hP hD => ?_) hf
      refine key (D := AlarmWritten) hN hP (fun d t hd => hc d t (hD d hd)) (fun m' e hm' hN hP hD' => ?_)
      exact key (D := fun (m : Empty) _ => nomatch m) hN hP (fun d t hd => hc d t (hD d (hD' d hd))) fun m => nomatch m

/-- C82: where the zones that are used can be written, a calendar can be written exactly if its attributes are of the right
types and none of the listed reasons applies. -/
theorem C82_exact (L : Lib) (w : Wrap) (hw : w.ok) (o : CalObj) (hcl : CalendarClasses o)
    (hz : ∀ z, UsesZone L o z → ∃ i, L.tzDump z = .ok i) :
    (∃ txt, serializeCalendar L w o = .ok txt) ↔
      TypedCalendar o ∧ ∀ e, ¬ WriteFault L (EntryWriteFault L) o e := by
  constructor
  · rintro ⟨txt, h⟩
    unfold serializeCalendar at h
    obtain ⟨i, hi, -⟩ := bind_ok_iff.1 h
    have hd := dumpCalendar_dumped hcl.1 hi
    refine ⟨⟨hcl.1, dumped_typed hd fun m st r hm hr => ?_⟩, dumped_faultless hd fun m st r e hm hr => ?_⟩
    · refine ⟨(hcl.2 m hm).1, dumped_typed (dumpObj_dumped hr) fun n st r hn hr => ?_⟩
      exact ⟨(hcl.2 m hm).2 n hn, dumped_typed (dumpObj_dumped hr) fun n => nomatch n⟩
    · refine dumped_faultless (dumpObj_dumped hr) (fun n st r e hn hr => ?_) e
      exact dumped_faultless (dumpObj_dumped hr) (fun n => nomatch n) e
  · rintro ⟨ht, hf⟩
    cases h : serializeCalendar L w o with
    | ok txt => exact ⟨txt, rfl⟩
    | error e =>
      exfalso
      cases C82_faults L w hw o ht e h with
      | own h => exact hf e h
      | zone hu hd =>
        obtain ⟨i, hi⟩ := hz _ hu
        rw [hi] at hd
        cases hd

/-- C82, without conditions on zones and parameters: what is written has attributes of the right types. -/
theorem C82_typed (L : Lib) (w : Wrap) (o : CalObj) (hcl : CalendarClasses o) (txt : Str)
    (h : serializeCalendar L w o = .ok txt) : TypedCalendar o := by
  unfold serializeCalendar at h
  obtain ⟨i, hi, -⟩ := bind_ok_iff.1 h
  have hd := dumpCalendar_dumped hcl.1 hi
  refine ⟨hcl.1, dumped_typed hd fun m st r hm hr => ?_⟩
  refine ⟨(hcl.2 m hm).1, dumped_typed (dumpObj_dumped hr) fun n st r hn hr => ?_⟩
  exact ⟨(hcl.2 m hm).2 n hn, dumped_typed (dumpObj_dumped hr) fun n => nomatch n⟩

/-! ### When the types are checked -/

/-- C82: new objects have attributes of the right types, but a custom alarm without an action. -/
theorem C82_new (L : Lib) (c : Cls) (hc : c ≠ .customAlarm) (T : σ → Prop) : Typed T (newObj L c : Obj σ) where
  one := fun a ks h => by
    have := List.all_eq_true.1 (fresh_one (σ := σ) L c) _ h
    dsimp only at this
    cases hg : (newObj L c : Obj σ).get a.toList with
    | none => exact .inl rfl
    | many l => rw [hg] at this; cases this
    | one v =>
      rw [hg] at this
      obtain ⟨k, hk, hv⟩ := List.any_eq_true.1 this
      exact .inr ⟨v, rfl, k, hk, ofKind_of hv⟩
  list := fun a ks h => by
    have := List.all_eq_true.1 (fresh_list (σ := σ) L c) _ h
    dsimp only at this
    generalize (newObj L c : Obj σ).get a.toList = x at this
    match x with
    | .many [] => exact ⟨[], rfl, fun _ h => nomatch h⟩
    | .many (_ :: _) => cases this
    | .none => cases this
    | .one _ => cases this
  members := fun a h => by
    have := List.all_eq_true.1 (fresh_member (σ := σ) L c) _ h
    generalize (newObj L c : Obj σ).get a.toList = x at this
    match x with
    | .many [] => exact ⟨[], rfl, fun _ h => nomatch h⟩
    | .many (_ :: _) => cases this
    | .none => cases this
    | .one _ => cases this
  span := fun h => by
    have := fresh_span (σ := σ) L c h
    generalize (newObj L c : Obj σ).get "timespan".toList = x at this
    unfold spanB at this
    split at this
    · exact ⟨_, rfl⟩
    · cases this
  action := fun h => absurd h hc

/-- C82: assigning keeps the attributes of the right types, but for the attributes that take any value. -/
theorem C82_assign (L : Lib) (T : σ → Prop) (o o' : Obj σ) (ht : Typed T o) (a : String) (ks : List ValKind)
    (ha : (a, ks) ∈ loneAttrs o.cls) (hu : a ∉ uncheckedAttrs o.cls) (v : AttrVal σ) (h : Assigned L o a v o') :
    Typed T o' := by
  obtain ⟨v', rfl, hv⟩ := assigned_kind ha hu h
  refine set_typed ht ha hv fun hc he => absurd ?_ hu
  rw [String.toList_inj.1 he, hc]
  decide

/-- C82: these take any value; the calendar with such an event or todo can never be written. -/
theorem C82_late (L : Lib) (o : EntryObj) (a : String) (ks : List ValKind) (ha : (a, ks) ∈ loneAttrs o.cls)
    (hu : a ∈ uncheckedAttrs o.cls) (v : Val Alarm) (hv : ∀ k ∈ ks, ¬ OfKind k v) :
    ∃ o', Assigned L o a (.one v) o' ∧
      ∀ (cal : CalObj) (w : Wrap) (txt : Str), cal.cls = .calendar → MemberOf cal o' → serializeCalendar L w cal ≠ .ok txt := by
  refine ⟨_, assigned_any hu _, fun cal w txt hc hm h => ?_⟩
  unfold serializeCalendar at h
  obtain ⟨i, hi, -⟩ := bind_ok_iff.1 h
  obtain ⟨st, r, hr⟩ := dumped_members (dumpCalendar_dumped hc hi) hm
  rcases dumped_one (dumpObj_dumped hr) (a := a) (ks := ks) ha with h1 | ⟨v', h1, ⟨k, hk, hkv⟩, -⟩
  · rw [get_set, if_pos rfl] at h1
    cases h1
  · rw [get_set, if_pos rfl] at h1
    cases h1
    exact hv k hk hkv

/-- C82: the same for lists, whose elements are never checked. -/
theorem C82_late_list (L : Lib) (o : EntryObj) (hc : o.cls = .event ∨ o.cls = .todo) (a : String) (ks : List ValKind)
    (ha : (a, ks) ∈ listAttrKinds o.cls) (l : List (Val Alarm)) (v : Val Alarm) (hl : v ∈ l) (hv : ∀ k ∈ ks, ¬ OfKind k v) :
    ∃ o', Assigned L o a (.many l) o' ∧
      ∀ (cal : CalObj) (w : Wrap) (txt : Str), cal.cls = .calendar → MemberOf cal o' → serializeCalendar L w cal ≠ .ok txt := by
  refine ⟨_, assigned_list hc ha l, fun cal w txt hcal hm h => ?_⟩
  unfold serializeCalendar at h
  obtain ⟨i, hi, -⟩ := bind_ok_iff.1 h
  obtain ⟨st, r, hr⟩ := dumped_members (dumpCalendar_dumped hcal hi) hm
  obtain ⟨l', hl', hall⟩ := (dumped_typed (T := fun _ => True) (dumpObj_dumped hr) fun _ _ _ _ _ => trivial).list a ks ha
  rw [get_set, if_pos rfl] at hl'
  cases hl'
  obtain ⟨k, hk, hkv⟩ := hall v hl
  exact hv k hk hkv

/-! ### Examples -/

/-- A world in which only zone 1 has a name; zone 3 has one but cannot be written. -/
def exNameless : Lib :=
  { exLib with conv := fun t => if t = .zone 1 then .timezone 1 else if t = .zone 3 then .timezone 3 else .unserializable }

/-- A new event with this attribute. -/
def exWith (a : String) (v : AttrVal Alarm) (params : List (String × ExtraVal) := []) : EntryObj :=
  { (newObj exLib .event : EntryObj) with
    attrs := dictSet (newObj exLib .event : EntryObj).attrs a.toList v
    extraParams := params.map fun p => (p.1.toList, p.2) }

/-- A calendar with this event. -/
def exHolding (e : EntryObj) (params : List (String × ExtraVal) := []) : CalObj :=
  { (newObj exLib .calendar : CalObj) with
    attrs := dictSet (newObj exLib .calendar : CalObj).attrs "events".toList (.many [.comp e])
    extraParams := params.map fun p => (p.1.toList, p.2) }

/-- The exception of writing it. -/
def exWriteError (o : CalObj) : Option PyErr :=
  match serializeCalendar exNameless .none o with
  | .error e => some e
  | .ok _ => none

/-- Some parameters. -/
def exSome : Params := [("X".toList, [⟨false, "1".toList⟩])]

/-- C82: each of the exceptions comes out of writing some calendar whose attributes are of the right types; and a value of
the wrong type is noticed only then. -/
theorem C82_occur :
    exWriteError (exHolding (exWith "summary" (.one (.text "x".toList)))) = none ∧
    exWriteError (exHolding (exWith "summary" (.one (.int 5)))) = some .valueError ∧
    exWriteError (exHolding (exWith "categories" (.many [.int 5]))) = some .valueError ∧
    exWriteError (exHolding (exWith "created" (.one (.dt ⟨0, false, some (.zone 7)⟩)))) = some .valueError ∧
    exWriteError (exHolding (exWith "created" (.one (.dt ⟨0, false, some (.zone 3)⟩)))) = some .valueError ∧
    exWriteError (exHolding (exWith "summary" (.one (.text "x".toList)) [("SUMMARY", .many [exSome])])) =
      some .attributeError ∧
    exWriteError (exHolding (exWith "categories" (.many [.text "x".toList]) [("CATEGORIES", .many [exSome, exSome])])) =
      some .valueError ∧
    exWriteError (exHolding (exWith "categories" (.many [.text "x".toList]) [("CATEGORIES", .one exSome)])) =
      some .attributeError ∧
    exWriteError (exHolding (exWith "categories" (.many [.text "x".toList, .text "y".toList])
      [("CATEGORIES", .many [[("__merge_next".toList, [⟨false, "TRUE".toList⟩])], exSome])])) = some .valueError ∧
    exWriteError (exHolding (exWith "categories" (.many [.text "x".toList, .text "y".toList])
      [("CATEGORIES", .many [exSome ++ [("__merge_next".toList, [⟨false, "TRUE".toList⟩])], exSome])])) = none ∧
    exWriteError (exHolding (exWith "alarms" (.many [.comp { (newObj exLib .noneAlarm : Alarm) with
      extraParams := [("ACTION".toList, .many [exSome])] }]))) = some .typeError ∧
    exWriteError (exHolding (exWith "summary" .none) [("EVENTS", .one exSome)]) = some .valueError ∧
    exWriteError (exHolding (exWith "alarms" (.many [.comp (newObj exLib .customAlarm)]))) = some .typeError := by
  decide +kernel

/-- An event with a summary and a time in the zone 1. -/
def exTypedEvent : EntryObj :=
  { (newObj exLib .event : EntryObj) with
    attrs := dictSet (dictSet (newObj exLib .event : EntryObj).attrs "summary".toList (.one (.text "x".toList)))
      "timespan".toList (.one (.span { cls := .event, begin? := some ⟨63844810662000000, false, some (.zone 1)⟩ })) }

theorem exHolding_members {e : EntryObj} {ps : List (String × ExtraVal)} {m : EntryObj} (h : MemberOf (exHolding e ps) m) :
    m = e := by
  obtain ⟨a, ha, l, hl, hm⟩ := h
  replace ha : a ∈ ["events", "todos"] := ha
  simp only [List.mem_cons, List.not_mem_nil, or_false] at ha
  rcases ha with rfl | rfl
  · have : (exHolding e ps).get "events".toList = .many [.comp e] := rfl
    rw [this] at hl
    cases hl
    simpa using hm
  · have : (exHolding e ps).get "todos".toList = .many [] := rfl
    rw [this] at hl
    cases hl
    cases hm

theorem exTypedEvent_members {m : Alarm} (h : MemberOf exTypedEvent m) : False := by
  obtain ⟨a, ha, l, hl, hm⟩ := h
  replace ha : a ∈ ["alarms"] := ha
  simp only [List.mem_cons, List.not_mem_nil, or_false] at ha
  subst ha
  have : exTypedEvent.get "alarms".toList = .many [] := rfl
  rw [this] at hl
  cases hl
  cases hm

theorem exTypedEvent_classes : CalendarClasses (exHolding exTypedEvent) := by
  refine ⟨rfl, fun m hm => ?_⟩
  rw [exHolding_members hm]
  exact ⟨.inl rfl, fun n hn => (exTypedEvent_members hn).elim⟩

/-- It has attributes of the right types, since it is written. -/
theorem exTypedEvent_typed : TypedCalendar (exHolding exTypedEvent) := by
  cases h : serializeCalendar exLib .none (exHolding exTypedEvent) with
  | ok txt => exact C82_typed exLib .none _ exTypedEvent_classes txt h
  | error e =>
    have : (serializeCalendar exLib .none (exHolding exTypedEvent)).toOption.isSome = true := by decide +kernel
    rw [h] at this
    cases this

example : PlainCalendar (exHolding exTypedEvent) := by
  refine ⟨rfl, fun m hm => ?_⟩
  rw [exHolding_members hm]
  exact ⟨rfl, fun n hn => (exTypedEvent_members hn).elim⟩

/-- The text, and the parameter that says whether the next is on the same line. -/
def exMarked (t : String) (next : Bool) (p : Params) : Val Alarm × Params :=
  (.text t.toList, p ++ [("__merge_next".toList, [⟨false, (if next then "TRUE" else "FALSE").toList⟩])])

/-- Two values on one line and one on a line of its own; two values that are to be on one line although they have different
parameters; and one that is to be on one line with a next one that is not there. -/
example : OnLines [exMarked "a" true exSome, exMarked "b" false exSome, exMarked "c" false []] ∧
    ¬ OnLines [exMarked "a" true exSome, exMarked "b" false []] ∧ ¬ OnLines [exMarked "a" true []] := by
  have t : ∀ s p, exMarked s true p = (.text s.toList, p ++ [("__merge_next".toList, [⟨false, "TRUE".toList⟩])]) := fun _ _ => rfl
  have f : ∀ s p, exMarked s false p = (.text s.toList, p ++ [("__merge_next".toList, [⟨false, "FALSE".toList⟩])]) := fun _ _ => rfl
  have m1 : Marked (exSome ++ [("__merge_next".toList, [⟨false, "TRUE".toList⟩])]) := (mergeNext_iff _).1 (by decide)
  have m2 : Marked ([] ++ [("__merge_next".toList, [⟨false, "TRUE".toList⟩])]) := (mergeNext_iff _).1 (by decide)
  have m3 : ¬ Marked (exSome ++ [("__merge_next".toList, [⟨false, "FALSE".toList⟩])]) := fun h => absurd ((mergeNext_iff _).2 h) (by decide)
  have m4 : ¬ Marked ([] ++ [("__merge_next".toList, [⟨false, "FALSE".toList⟩])]) := fun h => absurd ((mergeNext_iff _).2 h) (by decide)
  refine ⟨?_, fun h => ?_, fun h => ?_⟩
  · rw [t, f, f, onLines_cons, restOnLines_cons, onLines_cons]
    exact .inl ⟨m1, (paramsEq_iff _ _).1 (by decide), .inr ⟨m3, .inr ⟨m4, onLines_nil⟩⟩⟩
  · rw [t, f, onLines_cons, restOnLines_cons] at h
    rcases h with ⟨-, h, -⟩ | ⟨h, -⟩
    · exact absurd ((paramsEq_iff _ _).2 h) (by decide)
    · exact h m1
  · rw [t, onLines_cons] at h
    rcases h with ⟨-, init, last, rest, h, -⟩ | ⟨h, -⟩
    · cases init <;> cases h
    · exact h m2

/-- The zone 1 is used. -/
example : UsesZone exLib (exHolding exTypedEvent) 1 := by
  refine ⟨_, .zone 1, .member ⟨"events", by decide, _, rfl, List.mem_singleton.2 rfl⟩
    (.begin (.inl rfl) (s := { cls := .event, begin? := some ⟨63844810662000000, false, some (.zone 1)⟩ }) rfl (by decide) rfl),
    by decide, rfl, rfl⟩

/-- A number with more digits than Python writes. -/
example : AlarmWriteFault exLib { (newObj exLib .noneAlarm : Alarm) with
    attrs := [("repeat".toList, .one (.int (10 ^ 4300)))] } .valueError :=
  .number (a := "repeat") (ks := [.int, .bool]) (by decide) rfl (by rw [Int.natAbs_pow]; exact Nat.le_refl _)

end Ics
