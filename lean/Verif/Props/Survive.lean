import Verif.Proofs.NeededTime
import Verif.Proofs.ReadParts
import Verif.Props.SameTimeline
import Verif.Props.RoundTrip

/-
C98: exactly which values survive being written and read.
-/
namespace Ics

variable {σ : Type}

/-- C98 for URLs: a URL, made in whatever way, survives exactly if it is what some text is read as and its path is not
one of those that become absolute. -/
theorem C98_url (L : Lib) (u : Url) : urlparse L.urlChecks u.geturl = .ok u ↔ KeptUrl L u := url_kept L u

theorem exLib_float (x : Nat) : ';' ∉ exLib.formatFloat x := by
  show ';' ∉ (if x = 1 then "1.500000".toList else "2.000000".toList)
  split <;> decide

/-- C98: a value of the type of a converter survives being written and read exactly if it is one of the values `Kept`
lists.  (`hF`: the text of a number has no semicolon.) -/
theorem C98_iff (L : Lib) (hU : L.isUtc L.utc = true) (hF : ∀ x, ';' ∉ L.formatFloat x) (zones : List (Str × Nat))
    (c : ValConv) (v : Val σ) (hc : c.accepts v = true) (hv : PyVal v) : Survives L zones c v ↔ Kept L zones c v := by
  refine ⟨fun h => ?_, kept_survives hU hF hv⟩
  obtain ⟨text, ps, ctx, v', ps', ctx', h1, h2, h3⟩ := h []
  exact kept_of hF hc hv h1 h2 h3

/-- A time in the zone of the examples, and readers who know it and do not know it. -/
example : Kept (σ := Alarm) exLib [("X/Y".toList, 1)] .datetime (.dt ⟨63844810662000000, false, some (.zone 1)⟩) :=
  .datetime ⟨by decide, rfl, .inr (by decide), .inr ⟨1, by decide, by decide, .inl (by decide)⟩⟩
example : ¬ Survives (σ := Alarm) exLib [("X/Y".toList, 1)] .datetime (.dt ⟨63844810662000001, false, some (.zone 1)⟩) := by
  intro h
  have hv : PyVal (σ := Alarm) (.dt ⟨63844810662000001, false, some (.zone 1)⟩) := show _ ∧ _ by decide +kernel
  cases (C98_iff exLib (by decide) exLib_float _ .datetime _ rfl hv).1 h with
  | datetime h => exact absurd h.1 (by decide)
example : ¬ Survives (σ := Alarm) exLib [("X/Y".toList, 1)] .datetime (.dt ⟨63844810662000000, true, some (.zone 1)⟩) := by
  intro h
  have hv : PyVal (σ := Alarm) (.dt ⟨63844810662000000, true, some (.zone 1)⟩) := show _ ∧ _ by decide +kernel
  cases (C98_iff exLib (by decide) exLib_float _ .datetime _ rfl hv).1 h with
  | datetime h => exact absurd h.2.1 (by decide)
example : ¬ Survives (σ := Alarm) exLib [] .integer (.bool true) := by
  intro h
  cases (C98_iff exLib (by decide) exLib_float [] .integer (.bool true) rfl trivial).1 h
example (s : Str) : ¬ Survives (σ := Alarm) exLib [] .attendee (.person true (.str s) []) := by
  intro h
  cases (C98_iff exLib (by decide) exLib_float [] .attendee (.person true (.str s) []) rfl List.nodup_nil).1 h

/-- C98 for whole components: if an event or todo is written and what is written is read as the same event or todo, then
each of its single-valued attributes without parameters is as `KeptSingle` says.  (C41 and C56 say that components of
this kind do survive.) -/
theorem C98_entry (L : Lib) (hU : UtcOk L) (hF : ∀ x, ';' ∉ L.formatFloat x) (o o' : EntryObj) (st st' : DState)
    (n : Str) (items : List Item) (zones : List (Str × Nat)) (ctx : Ctx)
    (h1 : dumpEntry L o st = .ok (.cont n items, st')) (h2 : loadEntry L o.cls items (some zones) = .ok (o', ctx))
    (h3 : SameEntry L o o') (s : AttrSpec) (hs : .value s ∈ o.cls.convs) (hm : s.multi = false)
    (hp : dictGet? o.extraParams (upper s.attr) = none) (hv : ∀ v, o.get s.attr = .one v → PyVal v) :
    KeptSingle L zones o s := by
  refine single_needed (R := SameAlarm L) hU hF (fun _ is => loadAlarm_stable L is) h1 h2 hs hm hp hv ?_
  obtain ⟨k, hk, e⟩ := single_listed o.cls s hs
  rw [← e]
  exact h3.attrs k hk

/-- An event with a time stamp, a UID and so on. -/
example : ∃ (o : EntryObj) (o' : EntryObj) (st' : DState) (n : Str) (items : List Item) (zones : List (Str × Nat)) (ctx : Ctx),
    o = exEventObj ∧ dumpEntry exLib o { ctx := some [] } = .ok (.cont n items, st') ∧
    loadEntry exLib o.cls items (some zones) = .ok (o', ctx) ∧ SameEntry exLib o o' := by
  obtain ⟨items, used, h1, _, h3⟩ := C41_roundtrip_partial exLib exLib_utc _ _ exEventObj_rep
  obtain ⟨o', ctx, h4, h5⟩ := h3 used fun n z h => .inl h
  exact ⟨_, o', _, _, items, used, ctx, rfl, h1, h4, h5⟩

/-- C98 for alarms of the four standard classes. -/
theorem C98_alarm (L : Lib) (hU : UtcOk L) (hF : ∀ x, ';' ∉ L.formatFloat x) (o o' : Alarm) (st st' : DState)
    (n : Str) (items : List Item) (zones : List (Str × Nat)) (ctx : Ctx)
    (h1 : dumpAlarm L o st = .ok (.cont n items, st')) (h2 : loadAlarm L items (some zones) = .ok (o', ctx))
    (h3 : SameAlarm L o o') (s : AttrSpec) (hs : .value s ∈ o.cls.convs) (hm : s.multi = false)
    (hp : dictGet? o.extraParams (upper s.attr) = none) (hv : ∀ v, o.get s.attr = .one v → PyVal v) :
    KeptSingle L zones o s := by
  simp only [loadAlarm, bind_ok_iff] at h2
  obtain ⟨i, _, h2⟩ := h2
  cases i with
  | cont _ _ => cases h2
  | line cl =>
    dsimp only at h2
    have hc : alarmCls cl.value = o.cls := by rw [h3.cls, (loadObj_frame h2).1]
    rw [hc] at h2
    refine single_needed (R := fun _ _ => False) hU hF (noMembers_stable L) h1 h2 hs hm hp hv ?_
    obtain ⟨k, hk, e⟩ := single_listed o.cls s hs
    rw [← e]
    exact h3.attrs k hk

/-- The alarm of that event. -/
example : ∃ (o' : Alarm) (st' : DState) (n : Str) (items : List Item) (zones : List (Str × Nat)) (ctx : Ctx),
    dumpAlarm exLib exAlarmObj { ctx := some [] } = .ok (.cont n items, st') ∧
    loadAlarm exLib items (some zones) = .ok (o', ctx) ∧ SameAlarm exLib exAlarmObj o' := by
  obtain ⟨items, used, h1, _, _, h3⟩ := rt_alarm (need := false) exLib_utc (exAlarmObj_rep []) [] false (fun _ _ e => nomatch e) (fun _ => rfl)
  obtain ⟨o', ctx, h4, h5⟩ := h3 used fun _ _ h => h
  exact ⟨o', _, _, items, used, ctx, h1, h4, h5⟩

/-- C98 for lists: if the event or todo is read as the same, then each list without parameters is as `KeptList` says. -/
theorem C98_list (L : Lib) (hF : ∀ x, ';' ∉ L.formatFloat x) (o o' : EntryObj) (st st' : DState)
    (n : Str) (items : List Item) (zones : List (Str × Nat)) (ctx : Ctx)
    (h1 : dumpEntry L o st = .ok (.cont n items, st')) (h2 : loadEntry L o.cls items (some zones) = .ok (o', ctx))
    (h3 : SameEntry L o o') (s : AttrSpec) (hs : .value s ∈ o.cls.convs) (hm : s.multi = true)
    (hp : dictGet? o.extraParams (upper s.attr) = none) (hv : ∀ l, o.get s.attr = .many l → ∀ v ∈ l, PyVal v) :
    KeptList L zones o s := by
  refine multi_needed (R := SameAlarm L) hF (fun _ is => loadAlarm_stable L is) h1 h2 hs hm hp hv ?_
  obtain ⟨k, hk, e⟩ := single_listed o.cls s hs
  rw [← e]
  exact h3.attrs k hk

/-- C98 for times: if the event or todo is read as the same, then its time span without parameters is as `KeptSpan`
says. -/
theorem C98_time (L : Lib) (o o' : EntryObj) (st st' : DState)
    (n : Str) (items : List Item) (zones : List (Str × Nat)) (ctx : Ctx) (hc : o.cls = .event ∨ o.cls = .todo)
    (h1 : dumpEntry L o st = .ok (.cont n items, st')) (h2 : loadEntry L o.cls items (some zones) = .ok (o', ctx))
    (h3 : SameEntry L o o') (hp : ∀ k ∈ ["BEGIN", "DTEND", "DUE"].map String.toList, dictGet? o.extraParams k = none)
    (hv : ∀ s, o.get "timespan".toList = .one (.span s) → PyVal (σ := Alarm) (.span s)) :
    ∃ s, o.get "timespan".toList = .one (.span s) ∧ KeptSpan L zones o s := by
  refine span_needed (R := SameAlarm L) (fun _ is => loadAlarm_stable L is) h1 h2 ?_ hp hv (h3.attrs "timespan" ?_)
  · rcases hc with h | h <;> rw [h] <;> decide
  · rcases hc with h | h <;> rw [h] <;> decide

/-- The event above meets the hypotheses. -/
example : (∀ k ∈ ["BEGIN", "DTEND", "DUE"].map String.toList, dictGet? exEventObj.extraParams k = none) ∧
    (∀ s, exEventObj.get "timespan".toList = .one (.span s) → PyVal (σ := Alarm) (.span s)) ∧
    dictGet? exEventObj.extraParams (upper "attendees".toList) = none := by
  refine ⟨by decide, fun s hs => ?_, by decide⟩
  cases hs
  rintro d (h | h)
  · cases h
    decide
  · cases h

/-- So an event that begins in the second of two equal hours does not survive. -/
example (L : Lib) (o o' : EntryObj) (st st' : DState) (n : Str) (items : List Item) (zones : List (Str × Nat)) (ctx : Ctx)
    (s : Span) (d : DT) (hc : o.cls = .event) (hs : o.get "timespan".toList = .one (.span s)) (hb : s.begin? = some d)
    (hd : d.fold = true) (hp : o.extraParams = []) (hv : PyVal (σ := Alarm) (.span s))
    (h1 : dumpEntry L o st = .ok (.cont n items, st')) (h2 : loadEntry L o.cls items (some zones) = .ok (o', ctx)) :
    ¬ SameEntry L o o' := by
  intro h3
  obtain ⟨s', e, h⟩ := C98_time L o o' st st' n items zones ctx (.inl hc) h1 h2 h3 (fun k _ => by rw [hp]; rfl)
    (fun s' e => by rw [hs] at e; cases e; exact hv)
  rw [hs] at e
  cases e
  have := h.times d (.inl hb)
  split at this
  · rw [this.2.1] at hd; cases hd
  · rw [this.2.1] at hd; cases hd

/-- C98 for alarms of an event or todo: if the event or todo is read as the same, then every alarm is written and read as
the same, so that `C98_alarm` says what is needed. -/
theorem C98_alarms (L : Lib) (o o' : EntryObj) (st st' : DState)
    (n : Str) (items : List Item) (zones : List (Str × Nat)) (ctx : Ctx) (hc : o.cls = .event ∨ o.cls = .todo)
    (h1 : dumpEntry L o st = .ok (.cont n items, st')) (h2 : loadEntry L o.cls items (some zones) = .ok (o', ctx))
    (h3 : SameEntry L o o') :
    ∃ ms : List Alarm, o.get "alarms".toList = .many (ms.map .comp) ∧ ∀ m ∈ ms, ∃ st st' is m' ctx,
      dumpAlarm L m st = .ok (.cont "VALARM".toList is, st') ∧ loadAlarm L is (some zones) = .ok (m', ctx) ∧
      SameAlarm L m m' := by
  refine members_needed (R := SameAlarm L) (a := "alarms".toList) (nm := "VALARM".toList)
    (fun _ is => loadAlarm_stable L is) h1 h2 ?_ (fun m => sameObj_refl m) ?_ (h3.attrs "alarms" ?_)
  · rcases hc with h | h <;> rw [h] <;> decide
  · intro m m' st st' i is c c' hd hl hR
    simp only [dumpAlarm, dumpObj, bind_ok_iff] at hd
    obtain ⟨r, _, e⟩ := hd
    cases e
    show m.extraName = _
    rw [hR.extraName, (C38_alarm L _ _ _ _ hl).1]
  · rcases hc with h | h <;> rw [h] <;> decide

/-- C98, the rest of a component: if it is read as the same, then it has the name of its class, and none of the lines and
components in `extra` is one that the reader understands. -/
theorem C98_extra (L : Lib) (o o' : EntryObj) (items : List Item) (ctx ctx' : Ctx)
    (h2 : loadEntry L o.cls items ctx = .ok (o', ctx')) (h3 : SameEntry L o o') :
    o.extraName = o.cls.icsName ∧ ∀ i ∈ o.extra, unhandled o.cls i = true := by
  obtain ⟨-, k2, k3⟩ := loadObj_frame h2
  refine ⟨h3.extraName.trans k2, fun i hi => ?_⟩
  rw [h3.extra, k3] at hi
  exact (List.mem_filter.1 hi).2

/-! ### Values that do not survive -/

/-- A todo with this `percent`. -/
def exPercent (v : Val Alarm) : EntryObj :=
  { newObj (σ := Alarm) exLib .todo with attrs := dictSet (newObj exLib .todo).attrs "percent".toList (.one v) }

/-- `Todo(percent=True)` passes the validator and is written, but what is written cannot be read. -/
theorem C98_percent_fails :
    Check.run (σ := Alarm) exLib (.range 100) (.one (.bool true)) = .ok (.one (.bool true)) ∧
    (dumpEntry exLib (exPercent (.bool true)) { ctx := some [] }).toOption.map Prod.fst = some (.cont "VTODO".toList
      [exLine "UID" "fresh", exLine "DTSTAMP" "20240229T133742Z", exLine "PERCENT" "True"]) ∧
    (reread exLib (exPercent (.int 1))).isOk = true ∧
    (reread exLib (exPercent (.bool true))).map (fun _ => ()) = .error .valueError := by
  refine ⟨rfl, ?_, ?_, ?_⟩ <;> decide +kernel

end Ics
