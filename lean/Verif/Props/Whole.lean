import Verif.Proofs.Whole
import Verif.Props.Survive
import Verif.Props.Alarm

/-
C99: exactly which events and todos survive being written and read.
-/
namespace Ics

/-- C99, one half, whatever was written before: what is read as the same has only parts that survive. -/
theorem C99_needed (L : Lib) (hU : UtcOk L) (hF : ∀ x, ';' ∉ L.formatFloat x) (zones : List (Str × Nat))
    (o o' : EntryObj) (ho : MadeEntry L o) (n : Str) (items : List Item) (st st' : DState) (ctx : Ctx)
    (h1 : dumpEntry L o st = .ok (.cont n items, st')) (h2 : loadEntry L o.cls items (some zones) = .ok (o', ctx))
    (h3 : SameEntry L o o') : KeptEntry L zones o := by
  obtain ⟨hc, hm, hal⟩ := ho
  have hp : ∀ k, dictGet? o.extraParams k = none := fun k => by rw [hm.params]; rfl
  obtain ⟨e1, e2⟩ := C98_extra L o o' items _ ctx h2 h3
  refine ⟨e1, e2, ?_, ?_, ?_, ?_⟩
  · intro s hs hmu
    exact C98_entry L hU hF o o' _ _ n items zones ctx h1 h2 h3 s hs hmu (hp _) fun v e => (hm.one s v hs e).1
  · intro s hs hmu
    exact C98_list L hF o o' _ _ n items zones ctx h1 h2 h3 s hs hmu (hp _) fun l e v hv => (hm.many s l hs e v hv).1
  · intro a nm hcv
    obtain ⟨rfl, rfl⟩ := (entry_convs hc).2.2 _ hcv a nm rfl
    obtain ⟨ms, e, hms⟩ := C98_alarms L o o' _ _ n items zones ctx hc h1 h2 h3
    refine ⟨ms, e, fun m hmm => ?_⟩
    obtain ⟨k1, k2⟩ := hal ms e m hmm
    obtain ⟨st1, st2, is, m', ctx', d1, d2, d3⟩ := hms m hmm
    have hcu : m.cls ≠ .customAlarm := fun e => by
      rw [(C52_custom_fails L m e _ _ _ is d1 _).2] at d2
      cases d2
    exact kept_alarm hU hF (standard_alarm k1 hcu) k2 d1 d2 d3
  · intro _
    exact C98_time L o o' _ _ n items zones ctx hc h1 h2 h3 (fun k _ => hp k) fun s e => (hm.span s e).1

/-- C99: an event or todo without extra parameters survives being written and read exactly if all of its parts do, as
`KeptEntry` says.  (`hF`: the text of a number has no semicolon.  `hZ`: a zone object that the reader finds under the name
that is written for it is written under its own name, as `Timezone` objects are.) -/
theorem C99_iff (L : Lib) (hU : UtcOk L) (hF : ∀ x, ';' ∉ L.formatFloat x) (zones : List (Str × Nat))
    (hZ : ∀ n z, L.conv (.zone n) = .timezone z → Knows L zones (L.tzid z) n → z = n)
    (o : EntryObj) (ho : MadeEntry L o) : Survived L zones o ↔ KeptEntry L zones o := by
  constructor
  · rintro ⟨n, items, st, o', ctx, h1, h2, h3⟩
    exact C99_needed L hU hF zones o o' ho n items _ st ctx h1 h2 h3
  · intro h
    obtain ⟨items, used, h1, h2, h3⟩ := C41_roundtrip_partial L hU _ o (rep_entry (ns := entryNums o) hF hZ ho (fun _ h => h) h)
    obtain ⟨o', ctx, h4, h5⟩ := h3 zones fun n z e => (known_knows (h2 n z e)).2
    exact ⟨_, items, _, o', ctx, h1, h4, h5⟩

/-- The event of the examples without extra parameters. -/
def exPlain : EntryObj :=
  { exEventObj with
    attrs := dictSet exEventObj.attrs "alarms".toList (.many [.comp { exAlarmObj with extraParams := [] }]), extraParams := [] }

theorem exPlain_made : MadeEntry exLib exPlain := by
  refine ⟨.inl rfl, ⟨rfl, ?_, ?_, ?_⟩, ?_⟩
  · intro s v hs e
    have hs : Conv.value s ∈ Cls.event.convs := hs
    simp only [Cls.convs, entryConvs, attr1, attrN, List.cons_append, List.nil_append, List.mem_cons, List.not_mem_nil,
      or_false, Conv.value.injEq, reduceCtorEq, false_or] at hs
    rcases hs with rfl | rfl | rfl | rfl | rfl | rfl | rfl | rfl | rfl | rfl | rfl | rfl | rfl | rfl | rfl | rfl <;> cases e
    · exact ⟨trivial, rfl⟩
    · exact ⟨trivial, rfl⟩
    · exact ⟨show _ ∧ _ by decide, by rfl⟩
    · exact ⟨trivial, rfl⟩
  · intro s l hs e
    have hs : Conv.value s ∈ Cls.event.convs := hs
    simp only [Cls.convs, entryConvs, attr1, attrN, List.cons_append, List.nil_append, List.mem_cons, List.not_mem_nil,
      or_false, Conv.value.injEq, reduceCtorEq, false_or] at hs
    rcases hs with rfl | rfl | rfl | rfl | rfl | rfl | rfl | rfl | rfl | rfl | rfl | rfl | rfl | rfl | rfl | rfl <;> cases e
    · exact fun _ h => absurd h List.not_mem_nil
    · intro v hv
      simp only [List.mem_cons, List.not_mem_nil, or_false] at hv
      rcases hv with rfl | rfl
      · refine ⟨show List.Nodup _ by decide, fun _ _ _ e => ?_⟩
        cases e
        decide
      · refine ⟨show List.Nodup _ by decide, fun _ _ _ e => ?_⟩
        cases e
        decide
    · intro v hv
      simp only [List.mem_cons, List.not_mem_nil, or_false] at hv
      rcases hv with rfl | rfl
      · exact ⟨trivial, nofun⟩
      · exact ⟨trivial, nofun⟩
  · intro s e
    cases e
    refine ⟨?_, rfl, ?_⟩
    · rintro d (h | h)
      · cases h
        decide
      · cases h
    · intro us h
      cases h
      decide
  · intro ms e m hm
    have e : AttrVal.many [Val.comp { exAlarmObj with extraParams := [] }] = .many (ms.map Val.comp) := e
    injection e with e
    cases ms with
    | nil => cases hm
    | cons m0 ms =>
    cases ms with
    | cons _ _ => cases e
    | nil =>
    obtain rfl := List.mem_singleton.1 hm
    injection e with e _
    injection e with e
    subst e
    refine ⟨by decide, rfl, ?_, ?_, ?_⟩
    · intro s v hs e
      have hs : Conv.value s ∈ Cls.displayAlarm.convs := hs
      simp only [Cls.convs, alarmConvs, attr1, List.cons_append, List.nil_append, List.mem_cons, List.not_mem_nil, or_false,
        Conv.value.injEq, reduceCtorEq, false_or] at hs
      rcases hs with rfl | rfl | rfl | rfl <;> cases e
      · exact ⟨show _ ∧ _ by decide, rfl⟩
      · exact ⟨trivial, rfl⟩
    · intro s l hs e
      have hs : Conv.value s ∈ Cls.displayAlarm.convs := hs
      simp only [Cls.convs, alarmConvs, attr1, List.cons_append, List.nil_append, List.mem_cons, List.not_mem_nil, or_false,
        Conv.value.injEq, reduceCtorEq, false_or] at hs
      rcases hs with rfl | rfl | rfl | rfl <;> cases e
    · intro s e
      cases e

/-- All of it is of the right kind if the reader knows its zone … -/
theorem exPlain_kept : KeptEntry exLib [("X/Y".toList, 1)] exPlain := by
  have none : ∀ {s : AttrSpec}, exPlain.get s.attr = .none →
      s.attr ∉ ["uid", "dtstamp", "version", "prodid"].map String.toList →
      KeptSingle exLib [("X/Y".toList, 1)] exPlain s := by
    intro s h1 h2
    unfold KeptSingle
    rw [h1]
    exact h2
  refine ⟨rfl, by decide, ?_, ?_, ?_, ?_⟩
  · intro s hs hm
    have hs : Conv.value s ∈ Cls.event.convs := hs
    simp only [Cls.convs, entryConvs, attr1, attrN, List.cons_append, List.nil_append, List.mem_cons, List.not_mem_nil,
      or_false, Conv.value.injEq, reduceCtorEq, false_or] at hs
    rcases hs with rfl | rfl | rfl | rfl | rfl | rfl | rfl | rfl | rfl | rfl | rfl | rfl | rfl | rfl | rfl | rfl
    · exact ⟨.text, rfl, .text _, nofun⟩
    · exact ⟨.text, rfl, .text _, nofun⟩
    · exact none rfl (by decide)
    · exact none rfl (by decide)
    · exact none rfl (by decide)
    · exact none rfl (by decide)
    · exact none rfl (by decide)
    · exact none rfl (by decide)
    · exact ⟨.datetime, rfl, .datetime ⟨by decide, rfl, .inr (by decide), .inl (by decide)⟩, nofun⟩
    · cases hm
    · exact none rfl (by decide)
    · exact none rfl (by decide)
    · exact none rfl (by decide)
    · exact ⟨.geo, rfl, .geo (by decide) (by decide), nofun⟩
    · cases hm
    · cases hm
  · intro s hs hm
    have hs : Conv.value s ∈ Cls.event.convs := hs
    simp only [Cls.convs, entryConvs, attr1, attrN, List.cons_append, List.nil_append, List.mem_cons, List.not_mem_nil,
      or_false, Conv.value.injEq, reduceCtorEq, false_or] at hs
    rcases hs with rfl | rfl | rfl | rfl | rfl | rfl | rfl | rfl | rfl | rfl | rfl | rfl | rfl | rfl | rfl | rfl <;>
      first | cases hm | skip
    · exact ⟨[], rfl, fun _ h => absurd h List.not_mem_nil⟩
    · refine ⟨_, rfl, fun v hv => ?_⟩
      simp only [List.mem_cons, List.not_mem_nil, or_false] at hv
      rcases hv with rfl | rfl
      · refine ⟨.attendee, rfl, .attendee _ ((url_kept _ _).1 (by decide +kernel)), nofun, fun _ _ _ e => ?_⟩
        cases e
        decide
      · refine ⟨.attendee, rfl, .attendee _ ((url_kept _ _).1 (by decide +kernel)), nofun, fun _ _ _ e => ?_⟩
        cases e
        decide
    · refine ⟨_, rfl, fun v hv => ?_⟩
      simp only [List.mem_cons, List.not_mem_nil, or_false] at hv
      rcases hv with rfl | rfl
      · exact ⟨.text, rfl, .text _, nofun, nofun⟩
      · exact ⟨.text, rfl, .text _, nofun, nofun⟩
  · intro a n hcv
    obtain ⟨rfl, rfl⟩ := (entry_convs (.inl rfl)).2.2 _ hcv a n rfl
    refine ⟨[{ exAlarmObj with extraParams := [] }], rfl, fun m hm => ?_⟩
    obtain rfl := List.mem_singleton.1 hm
    refine ⟨by decide, rfl, by decide, ?_, ?_, ?_, fun h => absurd h (by decide)⟩
    · intro s hs hm
      have hs : Conv.value s ∈ Cls.displayAlarm.convs := hs
      simp only [Cls.convs, alarmConvs, attr1, List.cons_append, List.nil_append, List.mem_cons, List.not_mem_nil, or_false,
        Conv.value.injEq, reduceCtorEq, false_or] at hs
      rcases hs with rfl | rfl | rfl | rfl
      · exact ⟨.duration, rfl, .duration (by decide), nofun⟩
      · exact (show _ ∉ ["uid", "dtstamp", "version", "prodid"].map String.toList by decide)
      · exact (show _ ∉ ["uid", "dtstamp", "version", "prodid"].map String.toList by decide)
      · exact ⟨.text, rfl, .text _, nofun⟩
    · intro s hs hm
      have hs : Conv.value s ∈ Cls.displayAlarm.convs := hs
      simp only [Cls.convs, alarmConvs, attr1, List.cons_append, List.nil_append, List.mem_cons, List.not_mem_nil, or_false,
        Conv.value.injEq, reduceCtorEq, false_or] at hs
      rcases hs with rfl | rfl | rfl | rfl <;> cases hm
    · intro a n hs
      have hs : Conv.member a n ∈ Cls.displayAlarm.convs := hs
      simp [Cls.convs, alarmConvs, attr1] at hs
  · intro _
    refine ⟨_, rfl, rfl, ?_, ?_, ?_⟩
    · rw [if_neg (by decide)]
      exact .inr rfl
    · rintro d (h | h)
      · cases h
        rw [if_neg (by decide)]
        exact ⟨by decide, rfl, .inr (by decide), .inr ⟨1, by decide, by decide, .inl (by decide)⟩⟩
      · cases h
    · intro us h
      cases h
      exact ⟨by decide, rfl⟩

/-- … so it survives; if the reader takes the name for another zone, it does not survive. -/
example : Survived exLib [("X/Y".toList, 1)] exPlain ∧ ¬ Survived exLib [("X/Y".toList, 3)] exPlain := by
  have hZ : ∀ zones n z, exLib.conv (.zone n) = .timezone z → Knows exLib zones (exLib.tzid z) n → z = n := by
    intro zones n z h _
    by_cases e : n = 1
    · subst e
      cases h
      rfl
    · have : exLib.conv (.zone n) = .localTime := by
        show (match Tz.zone n with | .zone 1 => TzConv.timezone 1 | _ => .localTime) = _
        split
        · rename_i e'
          cases e'
          exact absurd rfl e
        · rfl
      rw [this] at h
      cases h
  refine ⟨(C99_iff exLib exLib_utc exLib_float _ (hZ _) _ exPlain_made).2 exPlain_kept, fun h => ?_⟩
  obtain ⟨s, e, hs⟩ := ((C99_iff exLib exLib_utc exLib_float _ (hZ _) _ exPlain_made).1 h).time (by decide)
  cases e
  have h := hs.times _ (.inl rfl)
  rw [if_neg (by decide)] at h
  rcases h.2.2.2 with h | ⟨z, h1, _, h2⟩
  · exact absurd h (by decide)
  · cases h1
    rcases h2 with h | ⟨h, _⟩
    · exact absurd h (by decide)
    · exact absurd h (by decide)

/-- An event with a custom alarm never survives. -/
theorem C99_custom (L : Lib) (hU : UtcOk L) (hF : ∀ x, ';' ∉ L.formatFloat x) (zones : List (Str × Nat)) (o : EntryObj)
    (ho : MadeEntry L o) (ms : List Alarm) (hg : o.get "alarms".toList = .many (ms.map .comp)) (m : Alarm) (hm : m ∈ ms)
    (hc : m.cls = .customAlarm) : ¬ Survived L zones o := by
  rintro ⟨n, items, st, o', ctx, h1, h2, h3⟩
  obtain ⟨ms', e, hms⟩ := (C99_needed L hU hF zones o o' ho n items _ st ctx h1 h2 h3).members "alarms".toList "VALARM".toList (by
    rcases ho.1 with h | h <;> rw [h] <;> decide)
  rw [hg] at e
  injection e with e
  have hm' : m ∈ ms' := by
    have : Val.comp m ∈ ms'.map Val.comp := by rw [← e]; exact List.mem_map_of_mem hm
    obtain ⟨x, hx, e⟩ := List.mem_map.1 this
    cases e
    exact hx
  exact (hms m hm').1 hc

/-- Such an event. -/
def exCustom : EntryObj :=
  { exPlain with attrs := dictSet exPlain.attrs "alarms".toList (.many [.comp
    ⟨.customAlarm, [("_action".toList, .one (.text "X-BLINK".toList))], "VALARM".toList, [], []⟩]) }

example : MadeEntry exLib exCustom ∧ ¬ Survived exLib [("X/Y".toList, 1)] exCustom := by
  have hmade : MadeEntry exLib exCustom := by
    obtain ⟨h1, h2, _⟩ := exPlain_made
    have get : ∀ a, a ≠ "alarms".toList → exCustom.get a = exPlain.get a := fun a h => by
      unfold Obj.get exCustom
      dsimp only
      rw [dictGet_set_ne _ _ h]
    have ne : ∀ s, .value s ∈ Cls.event.convs → s.attr ≠ "alarms".toList := by
      have : (Cls.event.convs.all fun cv => match cv with
        | .value s => decide (s.attr ≠ "alarms".toList)
        | _ => true) = true := by decide +kernel
      intro s hs
      exact of_decide_eq_true (List.all_eq_true.1 this _ hs)
    refine ⟨.inl rfl, ⟨rfl, fun s v hs e => h2.one s v hs ((get _ (ne s hs)).symm.trans e),
      fun s l hs e => h2.many s l hs ((get _ (ne s hs)).symm.trans e),
      fun s e => h2.span s ((get _ (by decide)).symm.trans e)⟩, fun ms e m hm => ?_⟩
    have e : AttrVal.many [Val.comp ⟨.customAlarm, [("_action".toList, .one (.text "X-BLINK".toList))], "VALARM".toList, [], []⟩] =
      .many (ms.map Val.comp) := e
    injection e with e
    cases ms with
    | nil => cases hm
    | cons m0 ms =>
    cases ms with
    | cons _ _ => cases e
    | nil =>
    obtain rfl := List.mem_singleton.1 hm
    injection e with e _
    injection e with e
    subst e
    refine ⟨by decide, rfl, ?_, ?_, ?_⟩
    · intro s v hs e
      have hs : Conv.value s ∈ Cls.customAlarm.convs := hs
      simp only [Cls.convs, alarmConvs, attr1, List.cons_append, List.nil_append, List.mem_cons, List.not_mem_nil, or_false,
        Conv.value.injEq, reduceCtorEq, false_or] at hs
      rcases hs with rfl | rfl | rfl | rfl <;> cases e
      exact ⟨trivial, rfl⟩
    · intro s l hs e
      have hs : Conv.value s ∈ Cls.customAlarm.convs := hs
      simp only [Cls.convs, alarmConvs, attr1, List.cons_append, List.nil_append, List.mem_cons, List.not_mem_nil, or_false,
        Conv.value.injEq, reduceCtorEq, false_or] at hs
      rcases hs with rfl | rfl | rfl | rfl <;> cases e
    · intro s e
      cases e
  exact ⟨hmade, C99_custom exLib exLib_utc exLib_float _ _ hmade [_] rfl _ List.mem_cons_self rfl⟩

end Ics
