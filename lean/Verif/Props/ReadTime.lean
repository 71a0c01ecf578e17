import Verif.Model.CalendarTimeline
import Verif.Proofs.ReadTime
import Verif.Props.Timeline
import Verif.Props.Component

/-
C87: the times of the events and todos of a calendar that was read, and its timeline.
-/
namespace Ics

theorem loadZones_own {L : Lib} : ∀ {cal : List Item} {avail zones : List (Str × Nat)}, loadZones L cal avail = .ok zones →
    ∀ n z, dictGet? zones n = some z ↔ dictGet? avail n = some z ∨ dictGet? avail n = none ∧ OwnZone L cal n z
  | [], avail, zones, h, n, z => by
    cases h
    refine ⟨.inl, ?_⟩
    rintro (h | ⟨-, a, b, c, h, -⟩)
    · exact h
    · exact absurd h (by simp)
  | .line cl :: is, avail, zones, h, n, z => by
    have hown : OwnZone L (.line cl :: is) n z ↔ OwnZone L is n z := by
      constructor
      · rintro ⟨a, b, c, h1, h2, h3, h4⟩
        cases a with
        | nil => exact absurd (List.cons.inj h1).1 (by simp)
        | cons x a =>
          exact ⟨a, b, c, (List.cons.inj h1).2, h2, h3, fun i z hi => h4 i z (List.mem_cons_of_mem _ hi)⟩
      · rintro ⟨a, b, c, h1, h2, h3, h4⟩
        refine ⟨.line cl :: a, b, c, by rw [h1]; rfl, h2, h3, fun i z hi => ?_⟩
        rcases List.mem_cons.1 hi with hi | hi
        · cases hi
        · exact h4 i z hi
    rw [hown]
    have h' : loadZones L is avail = .ok zones := h
    exact loadZones_own h' n z
  | .cont name items :: is, avail, zones, h, n, z => by
    unfold loadZones at h
    split at h
    · rename_i hname
      subst hname
      obtain ⟨z0, hz0, h⟩ := bind_ok_iff.1 h
      rw [loadZones_own h n z, dictGet_setDefault]
      by_cases e : n = L.tzid z0
      · subst e
        rw [if_pos rfl]
        cases ha : dictGet? avail (L.tzid z0) with
        | some x => simp
        | none =>
          simp only [Option.getD_none, Option.some.injEq, reduceCtorEq, false_and, or_false, false_or, true_and]
          constructor
          · rintro rfl
            exact ⟨[], items, is, rfl, hz0, rfl, fun _ _ h => absurd h List.not_mem_nil⟩
          · rintro ⟨a, b, c, h1, h2, h3, h4⟩
            cases a with
            | nil =>
              obtain ⟨h1, -⟩ := List.cons.inj h1
              injection h1 with _ h1
              subst h1
              rw [hz0] at h2
              injection h2
            | cons x a =>
              obtain ⟨rfl, -⟩ := List.cons.inj h1
              exact absurd rfl (h4 items z0 List.mem_cons_self hz0)
      · rw [if_neg e]
        have hown : OwnZone L (.cont "VTIMEZONE".toList items :: is) n z ↔ OwnZone L is n z := by
          constructor
          · rintro ⟨a, b, c, h1, h2, h3, h4⟩
            cases a with
            | nil =>
              obtain ⟨h1, -⟩ := List.cons.inj h1
              injection h1 with _ h1
              subst h1
              rw [hz0] at h2
              injection h2 with h2
              exact absurd (h2 ▸ h3.symm) e
            | cons x a =>
              exact ⟨a, b, c, (List.cons.inj h1).2, h2, h3, fun i z hi => h4 i z (List.mem_cons_of_mem _ hi)⟩
          · rintro ⟨a, b, c, h1, h2, h3, h4⟩
            refine ⟨.cont "VTIMEZONE".toList items :: a, b, c, by rw [h1]; rfl, h2, h3, fun i z' hi hz' => ?_⟩
            rcases List.mem_cons.1 hi with hi | hi
            · injection hi with _ hi
              subst hi
              rw [hz0] at hz'
              injection hz' with hz'
              exact hz' ▸ Ne.symm e
            · exact h4 i z' hi hz'
        rw [hown]
    · rename_i hname
      have hown : OwnZone L (.cont name items :: is) n z ↔ OwnZone L is n z := by
        constructor
        · rintro ⟨a, b, c, h1, h2, h3, h4⟩
          cases a with
          | nil =>
            obtain ⟨h1, -⟩ := List.cons.inj h1
            injection h1 with h1
            exact absurd h1 hname
          | cons x a =>
            exact ⟨a, b, c, (List.cons.inj h1).2, h2, h3, fun i z hi => h4 i z (List.mem_cons_of_mem _ hi)⟩
        · rintro ⟨a, b, c, h1, h2, h3, h4⟩
          refine ⟨.cont name items :: a, b, c, by rw [h1]; rfl, h2, h3, fun i z' hi hz' => ?_⟩
          rcases List.mem_cons.1 hi with hi | hi
          · injection hi with hi
            exact absurd hi.symm hname
          · exact h4 i z' hi hz'
      rw [hown]
      exact loadZones_own h n z

theorem zonesOf_means {L : Lib} {cal : List Item} {zones : List (Str × Nat)} (h : loadZones L cal [] = .ok zones) :
    zonesOf L.toWorld zones = TzidMeans L cal := by
  have key : ∀ n z, dictGet? zones n = some z ↔ OwnZone L cal n z := by
    intro n z
    rw [loadZones_own h n z]
    exact ⟨fun h => h.elim (fun h => by cases h) And.right, fun h => .inr ⟨rfl, h⟩⟩
  funext n z
  apply propext
  unfold zonesOf World.resolve
  simp only [Option.bind_some]
  cases hd : dictGet? zones n with
  | some x =>
    simp only [Option.some.injEq]
    have hx := (key n x).1 hd
    refine ⟨fun e => .own (e ▸ hx), fun h => ?_⟩
    cases h with
    | own h =>
      have := (key n z).2 h
      rw [hd] at this
      injection this
    | library h => exact absurd hx (h x)
    | dateutil h => exact absurd hx (h x)
  | none =>
    have hn : ∀ z, ¬ OwnZone L cal n z := fun z h => by
      have := (key n z).2 h
      rw [hd] at this
      cases this
    simp only
    cases hf : L.fromTzid n with
    | some x =>
      refine ⟨fun e => .library hn (hf.trans e), fun h => ?_⟩
      cases h with
      | own h => exact absurd h (hn z)
      | library _ h => rw [hf] at h; exact h
      | dateutil _ h => rw [hf] at h; cases h
    | none =>
      refine ⟨fun e => .dateutil hn hf e, fun h => ?_⟩
      cases h with
      | own h => exact absurd h (hn z)
      | library _ h => rw [hf] at h; cases h
      | dateutil _ _ h => exact h

theorem SaysTime.inRange {Z : Str → Nat → Prop} {u : Nat} {cl : ContentLine} {d : DT} {p : Precision}
    (h : SaysTime Z u cl d p) : d.InRange := by
  have key : ∀ {s : Str} {y m d h n x : Nat}, DateTimeText s y m d h n x →
      0 ≤ clock y m d h n x ∧ clock y m d h n x < maxWall := by
    intro s y m d h n x t
    obtain ⟨f, -, hf⟩ := (strptime_wall_iff s _).2 ⟨_, _, _, _, _, _, t, rfl⟩
    exact (wallOf_good hf).2
  cases h with
  | date _ h => exact key h
  | utc _ h => exact key h
  | zoned _ h => exact key h
  | floating _ h => exact key h

theorem entry_readFrom {L : Lib} {cal is : List Item} {zones : List (Str × Nat)} (hz : loadZones L cal [] = .ok zones)
    {c : Cls} (hc : c = .event ∨ c = .todo) {o : EntryObj} {ctx : Ctx} (h : loadEntry L c is (some zones) = .ok (o, ctx))
    {name : Str} : ReadFrom L cal name c.spanCls (.cont name is) o := by
  obtain ⟨sp, h1, h2, h3, h4⟩ := load_time (fun _ items => loadAlarm_stable L items) h (by rcases hc with rfl | rfl <;> decide)
  rw [zonesOf_means hz] at h4
  refine ⟨is, sp, rfl, get_of_dict h1, h2, (validate_ok _ _ ⟨fun b hb => ?_, fun e he => ?_⟩).1 h3, h4⟩
  · obtain ⟨cl, p, -, -, h⟩ := (h4.begin b).1 hb
    exact h.inRange
  · obtain ⟨cl, p, -, h⟩ := (h4.end e).1 he
    exact h.inRange

/-- C87: the events and todos of a calendar that was read are those of the text, one for each in the same order; the time of
each is valid and is the one that its lines say. -/
theorem C87_read (L : Lib) (items : List Item) (o : CalObj) (h : loadCalendar L items = .ok o) :
    (∃ evs : List EntryObj, o.get "events".toList = .many (evs.map .comp) ∧
      List.Forall₂ (ReadFrom L items "VEVENT".toList .event) (named "VEVENT" items) evs) ∧
    (∃ tds : List EntryObj, o.get "todos".toList = .many (tds.map .comp) ∧
      List.Forall₂ (ReadFrom L items "VTODO".toList .todo) (named "VTODO" items) tds) := by
  simp only [loadCalendar, bind_ok_iff] at h
  obtain ⟨zones, hz, ⟨o', ctx'⟩, h, e⟩ := h
  obtain rfl : o' = o := by cases e; rfl
  constructor
  · obtain ⟨ms, h1, h2⟩ := load_member (loadCalMember_stable L) rfl h
      (a := "events".toList) (n := "VEVENT".toList) (by decide)
    refine ⟨ms, h1, h2.imp ?_⟩
    rintro i m ⟨is, ctx2, rfl, hm⟩
    exact entry_readFrom hz (.inl rfl) hm
  · obtain ⟨ms, h1, h2⟩ := load_member (loadCalMember_stable L) rfl h
      (a := "todos".toList) (n := "VTODO".toList) (by decide)
    refine ⟨ms, h1, h2.imp ?_⟩
    rintro i m ⟨is, ctx2, rfl, hm⟩
    exact entry_readFrom hz (.inr rfl) hm

theorem asEvent_span {num : EntryObj → Nat} {o : EntryObj} {s : Span} (h : o.get "timespan".toList = .one (.span s)) :
    (o.asEvent num).entry.timespan = s := by
  unfold Obj.asEvent Obj.timespanOf
  rw [h]

theorem timelineEvents_eq {num : EntryObj → Nat} {o : CalObj} {evs : List EntryObj}
    (h : o.get "events".toList = .many (evs.map .comp)) : o.timelineEvents num = evs.map (Obj.asEvent num) := by
  unfold Obj.timelineEvents
  rw [h]
  dsimp only
  clear h
  induction evs with
  | nil => rfl
  | cons e es ih => rw [List.map_cons, List.filterMap_cons, ih]; rfl

/-- An event has a begin exactly if it was read from a component with a line DTSTART. -/
theorem begin_iff_starts {L : Lib} {cal : List Item} {name : Str} {cls : SpanCls} {i : Item} {o : EntryObj}
    (h : ReadFrom L cal name cls i o) (num : EntryObj → Nat) :
    (o.asEvent num).entry.timespan.begin?.isSome = starts i := by
  obtain ⟨is, s, rfl, h1, -, -, h2⟩ := h
  rw [asEvent_span h1, Bool.eq_iff_iff, Option.isSome_iff_exists]
  unfold starts
  rw [List.any_eq_true]
  constructor
  · rintro ⟨d, hd⟩
    obtain ⟨cl, p, h3, h4, -⟩ := (h2.begin d).1 hd
    exact ⟨.line cl, h3, decide_eq_true h4⟩
  · rintro ⟨i, hi, hn⟩
    cases i with
    | cont n is => cases hn
    | line cl =>
      have hn : cl.name = "DTSTART".toList := of_decide_eq_true hn
      obtain ⟨d, p, hT⟩ := h2.all cl hi (.inl hn)
      exact ⟨d, (h2.begin d).2 ⟨cl, p, hi, hn, hT⟩⟩

theorem filter_zip {α β : Type} {R : α → β → Prop} {p : α → Bool} {q : β → Bool} {xs : List α} {ys : List β}
    (h : List.Forall₂ R xs ys) (hR : ∀ x y, R x y → q y = p x) :
    ys.filter q = ((xs.zip ys).filter fun z => p z.1).map Prod.snd := by
  induction h with
  | nil => rfl
  | @cons x y xs ys h _ ih =>
    rw [List.zip_cons_cons, List.filter_cons, List.filter_cons]
    simp only [hR x y h]
    split
    · rw [List.map_cons, ih]
    · exact ih

/-- C87: the timeline of a calendar that was read consists of exactly the events of the text that have a line DTSTART, each
as often as in the text. -/
theorem C87_timeline (L : Lib) (num : EntryObj → Nat) (k : Nat) (items : List Item) (o : CalObj) (r : List TEvent)
    (h : loadCalendar L items = .ok o) (hr : o.timeline L num k = .ok r) :
    ∃ evs : List EntryObj, List.Forall₂ (ReadFrom L items "VEVENT".toList .event) (named "VEVENT" items) evs ∧
      r.Perm ((((named "VEVENT" items).zip evs).filter fun p => starts p.1).map fun p => p.2.asEvent num) := by
  obtain ⟨⟨evs, h1, h2⟩, -⟩ := C87_read L items o h
  refine ⟨evs, h2, ?_⟩
  unfold Obj.timeline at hr
  rw [timelineEvents_eq h1] at hr
  have := C33_exactly L.toEnv k none _ r (fun x hx => by
    obtain ⟨ev, hev, rfl⟩ := List.mem_map.1 hx
    obtain ⟨i, -, is, s, -, g1, g2, g3, -⟩ := forall₂_mem h2 ev hev
    rw [asEvent_span g1]
    exact ⟨g2, g3⟩) hr
  refine this.trans (List.Perm.of_eq ?_)
  rw [List.filter_map, show (fun p : Item × EntryObj => p.2.asEvent num) = Obj.asEvent num ∘ Prod.snd from rfl,
    ← List.map_map]
  exact congrArg _ (filter_zip h2 fun i ev hi => begin_iff_starts hi num)

/-- The iteration raises nothing if the ends exist and local times can be converted. -/
theorem C87_no_error (L : Lib) (num : EntryObj → Nat) (k : Nat) (items : List Item) (o : CalObj)
    (h : loadCalendar L items = .ok o) (hs : ∀ e ∈ o.timelineEvents num, L.Sortable e.entry.timespan) :
    ∃ r, o.timeline L num k = .ok r := by
  obtain ⟨⟨evs, h1, h2⟩, -⟩ := C87_read L items o h
  have hz : ∀ {Z : Str → Nat → Prop} {u cl d p}, SaysTime Z u cl d p → d.Fresh k := by
    intro Z u cl d p h i hi
    cases h <;> cases hi
  refine C33_no_error L.toEnv k _ fun x hx => ⟨?_, hs x hx⟩
  rw [timelineEvents_eq h1] at hx
  obtain ⟨ev, hev, rfl⟩ := List.mem_map.1 hx
  obtain ⟨i, -, is, s, -, g1, -, -, g2⟩ := forall₂_mem h2 ev hev
  rw [asEvent_span g1]
  constructor
  · intro b hb
    obtain ⟨cl, p, -, -, h⟩ := (g2.begin b).1 hb
    exact hz h
  · intro b hb
    obtain ⟨cl, p, -, h⟩ := (g2.end b).1 hb
    exact hz h

theorem effEnd_zone {e : Env} {s : Span} (hc : s.cls = .event) {b : DT} (hb : s.begin? = some b) {t : Tz}
    (ht : b.tz = some t) (he : ∀ d, s.end? = some d → d.tz = some t) {r : Option DT} (h : e.effEnd s = .ok r) :
    ∃ en, r = some en ∧ en.tz = some t := by
  unfold Env.effEnd at h
  cases hen : s.end? with
  | some en =>
    rw [hen] at h
    cases h
    exact ⟨en, rfl, he en hen⟩
  | none =>
    rw [hen, hb] at h
    dsimp only at h
    have : ∃ d, e.effDur s = .ok (some d) := by
      unfold Env.effDur
      rw [hen, hc]
      cases s.dur? with
      | some d => exact ⟨d, rfl⟩
      | none => exact ⟨_, rfl⟩
    obtain ⟨d, hd⟩ := this
    rw [hd] at h
    dsimp only at h
    unfold DT.add at h
    split at h
    · rename_i en hadd
      split at hadd
      · cases hadd
        cases h
        exact ⟨_, rfl, ht⟩
      · cases hadd
    · cases h

/-- C87: if all times of the events are given in UTC, the timeline is in the order of the begins as they are in the text. -/
theorem C87_utc_sorted (L : Lib) (hl : L.Lawful (.loc 0)) (hu : ∀ w f, L.off L.utc w f = 0) (num : EntryObj → Nat) (k : Nat)
    (items : List Item) (o : CalObj) (r : List TEvent) (h : loadCalendar L items = .ok o)
    (hutc : ∀ is cl, .cont "VEVENT".toList is ∈ items → .line cl ∈ is → cl.name = "DTSTART".toList ∨ IsEnd cl →
      ¬ IsDate cl ∧ EndsInZ cl.value)
    (hs : ∀ e ∈ o.timelineEvents num, ∃ en, L.effEnd e.entry.timespan = .ok en)
    (hr : o.timeline L num k = .ok r) :
    r.Pairwise fun a b => ∀ x y, a.entry.timespan.begin? = some x → b.entry.timespan.begin? = some y → x.wall ≤ y.wall := by
  obtain ⟨⟨evs, h1, h2⟩, -⟩ := C87_read L items o h
  have key : ∀ e ∈ o.timelineEvents num, e.entry.timespan.cls = .event ∧
      (∀ d, e.entry.timespan.begin? = some d → d.tz = some (.zone L.utc)) ∧
      (∀ d, e.entry.timespan.end? = some d → d.tz = some (.zone L.utc)) ∧ WellFormed L.toEnv e.entry.timespan := by
    intro e he
    rw [timelineEvents_eq h1] at he
    obtain ⟨ev, hev, rfl⟩ := List.mem_map.1 he
    obtain ⟨i, hi, is, s, rfl, g1, g3, g4, g2⟩ := forall₂_mem h2 ev hev
    have hi : .cont "VEVENT".toList is ∈ items := (List.mem_filter.1 hi).1
    rw [asEvent_span g1]
    have hz : ∀ {cl d p}, .line cl ∈ is → cl.name = "DTSTART".toList ∨ IsEnd cl →
        SaysTime (TzidMeans L items) L.utc cl d p → d.tz = some (.zone L.utc) := by
      intro cl d p m1 m2 m3
      obtain ⟨q1, q2⟩ := hutc is cl hi m1 m2
      cases m3 with
      | date h => exact absurd h q1
      | utc => rfl
      | zoned _ _ h => exact absurd q2 h
      | floating _ _ h => exact absurd q2 h
    refine ⟨g3, fun d hd => ?_, fun d hd => ?_, g4⟩
    · obtain ⟨cl, p, m1, m2, m3⟩ := (g2.begin d).1 hd
      exact hz m1 (.inl m2) m3
    · obtain ⟨cl, p, m1, m2⟩ := (g2.end d).1 hd
      exact hz (lastEnd_mem m1) (.inr m1.1) m2
  unfold Obj.timeline at hr
  obtain ⟨its, hi, hr⟩ := bind_ok_iff.1 hr
  injection hr with hr
  subst hr
  have hspan := C33_spans L.toEnv k none _ its hi
  have hinst : ∀ d : DT, d.tz = some (.zone L.utc) → L.instant d = d.wall := by
    intro d hd
    unfold Env.instant
    rw [hd]
    show d.wall - L.off L.utc _ _ = _
    rw [hu]
    omega
  have hbegin : ∀ it ∈ its, it.2.entry.timespan.begin?.isSome := by
    intro it hit
    have := C33_exactly L.toEnv k none (o.timelineEvents num) (its.map Prod.snd)
      (fun x hx => ⟨(key x hx).1, (key x hx).2.2.2⟩) (bind_ok_iff.2 ⟨its, hi, rfl⟩)
    exact (List.mem_filter.1 (this.subset (List.mem_map_of_mem hit))).2
  have hT : ∀ it ∈ its, it.1 = it.2.entry.timespan ∧ it.1.Fresh k ∧
      ∃ b en, L.Timed it.1 b en ∧ b.tz = some (.zone L.utc) ∧ en.tz = some (.zone L.utc) := by
    intro it hit
    obtain ⟨q1, q2⟩ := hspan it hit
    injection q2 with q2
    obtain ⟨c1, c2, c3, c4⟩ := key _ q1
    obtain ⟨en, he⟩ := hs _ q1
    obtain ⟨b, hb⟩ := Option.isSome_iff_exists.1 (hbegin it hit)
    rw [← q2]
    refine ⟨rfl, ⟨fun d hd i e => ?_, fun d hd i e => ?_⟩, ?_⟩
    · rw [c2 d hd] at e
      cases e
    · rw [c3 d hd] at e
      cases e
    · obtain ⟨en, rfl, hen⟩ := effEnd_zone c1 hb (c2 b hb) c3 he
      refine ⟨b, en, ⟨by rw [c1]; decide, hb, he, fun e => ?_, fun e => ?_⟩, c2 b hb, hen⟩
      · rw [c2 b hb] at e
        cases e
      · rw [hen] at e
        cases e
  have hsorted := C33_begin_partial L.toEnv hl (fun d => d.tz = some (.zone L.utc)) ⟨?_, ?_⟩ ?_ k none _ its hi
    fun it hit => (hT it hit).2
  · rw [List.pairwise_map]
    refine hsorted.imp_of_mem fun {a b} ma mb hab x y hx hy => ?_
    obtain ⟨a1, -, ab, aen, ⟨-, at1, at2, -⟩, az, -⟩ := hT a ma
    obtain ⟨b1, -, bb, ben, ⟨-, bt1, bt2, -⟩, bz, -⟩ := hT b mb
    have := hab (L.instant ab) (L.instant aen) (L.instant bb) (L.instant ben) ⟨ab, aen, at1, at2, rfl, rfl⟩
      ⟨bb, ben, bt1, bt2, rfl, rfl⟩
    rw [hinst ab az, hinst bb bz] at this
    rw [a1, hx] at at1
    rw [b1, hy] at bt1
    cases at1
    cases bt1
    exact this
  · intro d hd t ht
    have e : L.toEnv.localize d = d := by
      unfold Env.localize
      rw [show d.tz = _ from hd]
    rw [e] at ht ⊢
    rw [show d.tz = _ from hd] at ht
    injection ht with ht
    subst ht
    show L.off L.utc _ _ = L.off L.utc _ _
    rw [hu, hu]
  · intro x y hx hy _ _
    rw [hinst x hx, hinst y hy]
    exact ⟨Iff.rfl, Iff.rfl⟩
  · intro d hd e
    rw [show d.tz = _ from hd] at e
    cases e

/-- A calendar with a zone, three events with a begin, one without and a todo. -/
def exDated : List Item :=
  [exLine "VERSION" "2.0", exLine "PRODID" "x", .cont "VEVENT".toList [exLine "DTSTART" "20240301T120000Z", exLine "UID" "3"],
    .cont "VTIMEZONE".toList [], .cont "VEVENT".toList [exLine "UID" "none"],
    .cont "VEVENT".toList [exLine "UID" "1", exLine "DTEND" "2024-02-29T1800Z", exLine "DTSTART" "20240229Z"],
    .cont "VTODO".toList [exLine "DUE" "20240229T120000" [("TZID".toList, [⟨false, "X/Y".toList⟩])]],
    .cont "VEVENT".toList [exLine "DURATION" "PT1H", exLine "UID" "2", exLine "DTSTART" "20240301T1100Z"]]

/-- The identifiers of the events of the timeline, as numbers. -/
def exUid (o : EntryObj) : Nat :=
  match o.get "uid".toList with
  | .one (.text t) => if t = "1".toList then 1 else if t = "2".toList then 2 else if t = "3".toList then 3 else 0
  | _ => 0

/-- It is read, and its timeline has the three events in their order. -/
example : ((loadCalendar exLib exDated >>= fun o => o.timeline exLib exUid 0).toOption.map fun r => r.map TEvent.rest) =
    some [1, 2, 3] := by
  decide +kernel

/-- What is said about the zones in `C87_utc_sorted` holds for the library of the examples. -/
example : exLib.Lawful (.loc 0) ∧ ∀ w f, exLib.off exLib.utc w f = 0 :=
  ⟨fun u => Int.sub_zero u, fun _ _ => rfl⟩

/-- The times of its events are in UTC. -/
example : ∀ is cl, .cont "VEVENT".toList is ∈ exDated → .line cl ∈ is → cl.name = "DTSTART".toList ∨ IsEnd cl →
    ¬ IsDate cl ∧ EndsInZ cl.value := by
  have key : ∀ i ∈ exDated, ∀ is, i = .cont "VEVENT".toList is → ∀ j ∈ is, ∀ cl, j = .line cl →
      cl.name = "DTSTART".toList ∨ cl.name = "DTEND".toList ∨ cl.name = "DUE".toList →
      dictGet? cl.params "VALUE".toList = none ∧ EndsInZ cl.value := by
    intro i hi is e
    simp only [exDated, List.mem_cons, List.not_mem_nil, or_false] at hi
    rcases hi with rfl | rfl | rfl | rfl | rfl | rfl | rfl | rfl
    case inl | inr.inl => cases e
    case inr.inr.inr.inl => exact absurd (Item.cont.inj e).1 (by decide)
    case inr.inr.inr.inr.inr.inr.inl => exact absurd (Item.cont.inj e).1 (by decide)
    all_goals
      obtain rfl := (Item.cont.inj e).2
      simp only [List.mem_cons, List.not_mem_nil, or_false, exLine, forall_eq_or_imp, forall_eq, Item.line.injEq,
        forall_eq']
      decide +kernel
  intro is cl h1 h2 h3
  obtain ⟨q1, q2⟩ := key _ h1 is rfl _ h2 cl rfl h3
  refine ⟨fun ⟨q, hq⟩ => ?_, q2⟩
  rw [q1] at hq
  cases hq

/-- What the end of that event says. -/
example : SaysTime (TzidMeans exLib exDated) exLib.utc ⟨"DTEND".toList, [], "2024-02-29T1800Z".toList⟩
    ⟨clock 2024 2 29 18 0 0, false, some (.zone 0)⟩ .second := by
  refine .utc (fun ⟨q, h⟩ => by cases h) ?_ (by decide)
  rw [show stripped "2024-02-29T1800Z".toList = four 2024 ++ two 2 ++ two 29 ++ 'T' :: (two 18 ++ two 0) by decide]
  exact .time ⟨by decide, by decide, by decide, by decide, by decide, by decide⟩ (.digits (by decide))
    (.inl rfl) (.hm (by decide) (by decide))

/-- The name `X/Y` stands for the zone of that calendar. -/
example : TzidMeans exLib exDated "X/Y".toList 1 :=
  .own ⟨exDated.take 3, [], exDated.drop 4, rfl, rfl, by decide, fun is z h _ => by
    simp [exDated, exLine] at h⟩

/-- A calendar with an event that takes the last day and another one. -/
def exLastDay : List Item :=
  [exLine "VERSION" "2.0", exLine "PRODID" "x",
    .cont "VEVENT".toList [exLine "DTSTART" "99991231" [("VALUE".toList, [⟨false, "DATE".toList⟩])]],
    .cont "VEVENT".toList [exLine "DTSTART" "20240229" [("VALUE".toList, [⟨false, "DATE".toList⟩])]]]

/-- C87 fails for the last day: an event that takes it can be read, but the timeline of a calendar with it and another event
cannot be iterated: its end is not in the range of `datetime`. -/
theorem C87_fails :
    ∃ o, loadCalendar exLib exLastDay = .ok o ∧ o.timeline exLib (fun _ => 0) 0 = .error .overflowError := by
  have key : ((loadCalendar exLib exLastDay).toOption.map fun o =>
      match o.timeline exLib (fun _ => 0) 0 with
      | .error .overflowError => true
      | _ => false) = some true := by decide +kernel
  cases h : loadCalendar exLib exLastDay with
  | error e =>
    rw [h] at key
    cases key
  | ok o =>
    rw [h] at key
    injection key with key
    refine ⟨o, rfl, ?_⟩
    dsimp only at key
    split at key
    · assumption
    · cases key

end Ics
