import Verif.Props.Clone
import Verif.Props.Edited

/-
C104: a clone survives, and it can be changed in any way that lasts.
-/
namespace Ics

variable {σ : Type}

theorem conv_attr {c : Cls} {cv : Conv} (h : cv ∈ c.convs) {p : Str × Check} (hp : p ∈ Conv.attrChecks c cv) :
    p.1 ∈ c.attrChecks.map Prod.fst :=
  List.mem_map_of_mem (List.mem_flatMap.2 ⟨cv, h, hp⟩)

/-- A component with the attributes of one that survives, and without unknown items and parameters. -/
theorem rep_bare {L : Lib} {zs : List (Str × Nat)} {M : Str → σ → Prop} {o o' : Obj σ} (ho : RepObj L zs M o)
    (h1 : o'.cls = o.cls) (hg : ∀ a ∈ o.cls.attrChecks.map Prod.fst, o'.get a = o.get a) (hn : o'.extraName = o.cls.icsName)
    (he : o'.extra = []) (hp : o'.extraParams = []) : RepObj L zs M o' := by
  refine ⟨h1 ▸ ho.cls, by rw [hn, h1], fun i hi => absurd (he ▸ hi) List.not_mem_nil, fun s hs hm => ?_, fun s hs hm => ?_,
    fun a n hs => ?_, fun hs => ?_, fun hs => ?_⟩
  · rw [h1] at hs
    have hold := ho.single s hs hm
    have e : o'.get s.attr = o.get s.attr := hg _ (conv_attr hs (p := (s.attr, s.check)) List.mem_cons_self)
    unfold RepSingle at hold ⊢
    rw [e, hp]
    cases hv : o.get s.attr with
    | none =>
      rw [hv] at hold
      exact ⟨rfl, hold.2⟩
    | one v =>
      rw [hv] at hold
      obtain ⟨c, k1, k2, k3, _, _⟩ := hold
      exact ⟨c, k1, k2, k3, trivial, fun _ => rfl⟩
    | many l =>
      rw [hv] at hold
      exact hold
  · rw [h1] at hs
    obtain ⟨groups, k1, k2, _⟩ := ho.multi s hs hm
    have e : o'.get s.attr = o.get s.attr := hg _ (conv_attr hs (p := (s.attr, s.check)) List.mem_cons_self)
    refine ⟨(groups.map Prod.snd).flatten.map fun v => ([], [v]), fun g hgm => ?_, ?_, .inl ⟨by rw [hp]; rfl, fun g hgm => ?_⟩⟩
    · obtain ⟨v, hv, rfl⟩ := List.mem_map.1 hgm
      obtain ⟨vs, hvs, hv⟩ := List.mem_flatten.1 hv
      obtain ⟨g, hgm, rfl⟩ := List.mem_map.1 hvs
      have hG := k1 g hgm
      obtain ⟨c, hc⟩ := hG.same
      refine ⟨by simp, List.nodup_nil, ⟨List.not_mem_nil, List.not_mem_nil⟩, ⟨c, fun w hw => ?_⟩, fun u hu => ?_,
        fun a u x hu => ?_⟩
      · rw [List.mem_singleton.1 hw]
        exact hc v hv
      · exact hG.url u (List.mem_singleton.1 hu ▸ hv)
      · obtain ⟨a1, a2, _, _⟩ := hG.attendee a u x (List.mem_singleton.1 hu ▸ hv)
        exact ⟨a1, a2, rfl, rfl⟩
    · rw [e, k2, List.map_map]
      congr 1
      exact (flatten_singletons _).symm
    · obtain ⟨v, hv, rfl⟩ := List.mem_map.1 hgm
      exact ⟨rfl, rfl⟩
  · rw [h1] at hs
    obtain ⟨_, k⟩ := ho.members a n hs
    refine ⟨by rw [hp]; rfl, ?_⟩
    rw [hg _ (conv_attr hs (p := (a, .list)) List.mem_cons_self)]
    exact k
  · rw [h1] at hs
    obtain ⟨s, a1, a2, a3, a4, a5, a6, a7, _, _, _, _⟩ := ho.time hs
    refine ⟨s, (hg _ (conv_attr hs (p := ("timespan".toList, .timespan o.cls.spanCls)) List.mem_cons_self)).trans a1,
      h1 ▸ a2, a3, a4, a5, a6, a7, ?_, ?_, ?_, ?_⟩
    all_goals rw [hp]
    · exact ⟨trivial, fun _ => rfl⟩
    · exact ⟨rfl, rfl⟩
    · exact ⟨trivial, fun _ => rfl⟩
    · exact ⟨trivial, fun _ => rfl⟩
  · rw [hp]
    trivial

/-- Attributes of events and todos that need not have a value. -/
theorem entry_missing {L : Lib} {c : Cls} (h : c = .event ∨ c = .todo) : ∀ s, .value s ∈ c.convs → s.multi = false →
    s.attr ∉ ["uid", "dtstamp", "version", "prodid"].map String.toList →
      s.check.run (σ := σ) L .none = .ok .none := by
  have : (c.convs.all fun cv => match cv with
      | .value s => s.multi || decide (s.attr ∈ ["uid", "dtstamp", "version", "prodid"].map String.toList) ||
          match s.check with
          | .any | .status | .utc | .strOpt | .organizerOpt | .geo | .range _ | .datetime | .timedelta | .trigger => true
          | _ => false
      | _ => true) = true := by
    rcases h with rfl | rfl <;> decide +kernel
  intro s hs hm ha
  have h := List.all_eq_true.1 this _ hs
  dsimp only at h
  rw [hm, decide_eq_false ha, Bool.false_or, Bool.false_or] at h
  generalize s.check = k at h
  cases k <;> first | rfl | cases h

/-- Lists of events and todos are checked for being lists only. -/
theorem entry_lists {c : Cls} (h : c = .event ∨ c = .todo) : ∀ s, .value s ∈ c.convs → s.multi = true → s.check = .list := by
  have : (c.convs.all fun cv => match cv with
      | .value s => !s.multi || decide (s.check = .list)
      | _ => true) = true := by
    rcases h with rfl | rfl <;> decide +kernel
  intro s hs hm
  have h := List.all_eq_true.1 this _ hs
  dsimp only at h
  rw [hm] at h
  exact of_decide_eq_true h

/-- C104: an event or todo that survives can be cloned; the clone has the same attributes and survives, too. -/
theorem C104_clone (L : Lib) (zs : List (Str × Nat)) (o : EntryObj) (h : RepEntry L zs o) :
    ∃ o', o.clone L = .ok o' ∧ RepEntry L zs o' ∧ (∀ k ∈ allAttrs o.cls, o'.get k.toList = o.get k.toList) ∧
      o'.extra = [] ∧ o'.extraParams = [] := by
  obtain ⟨hc, ho⟩ := h
  obtain ⟨o', k1, k2, k3⟩ := C44_attributes L o fun p hp => by
    obtain ⟨cv, hcv, hp⟩ := List.mem_flatMap.1 hp
    cases cv with
    | value s =>
      cases List.mem_singleton.1 hp
      cases hm : s.multi with
      | true =>
        obtain ⟨groups, _, hg, _⟩ := ho.multi s hcv hm
        refine ⟨o.get s.attr, ?_⟩
        dsimp only
        rw [entry_lists hc s hcv hm, hg]
        rfl
      | false =>
        have hs := ho.single s hcv hm
        unfold RepSingle at hs
        cases hv : o.get s.attr with
        | none =>
          rw [hv] at hs
          refine ⟨.none, ?_⟩
          exact entry_missing hc s hcv hm hs.2
        | one v =>
          rw [hv] at hs
          obtain ⟨c, _, _, k, _⟩ := hs
          exact ⟨.one v, k⟩
        | many l =>
          rw [hv] at hs
          exact hs.elim
    | member a n =>
      cases List.mem_singleton.1 hp
      obtain ⟨_, ms, hg, _⟩ := ho.members a n hcv
      refine ⟨o.get a, ?_⟩
      dsimp only
      rw [hg]
      rfl
    | timespan =>
      cases List.mem_singleton.1 hp
      obtain ⟨s, hs⟩ := ho.time hcv
      refine ⟨o.get "timespan".toList, ?_⟩
      dsimp only
      rw [hs.get]
      have hv : L.validateTimespan o.cls.spanCls s = .ok () := by
        unfold Env.validateTimespan
        rw [if_pos (by simp [isInstance, hs.cls])]
        exact hs.valid
      simp only [Check.run, hv]
      rfl
    | alarmAction => cases hp
    | calendarTimezone => cases hp
  have k4 : o'.extraName = o.cls.icsName ∧ o'.extra = [] ∧ o'.extraParams = [] := by
    unfold Obj.clone at k1
    cases ha : cloneAttrs L o o.cls.attrChecks with
    | error e => rw [ha] at k1; cases k1
    | ok a => rw [ha] at k1; cases k1; exact ⟨rfl, rfl, rfl⟩
  refine ⟨o', k1, ⟨k2 ▸ hc, rep_bare ho k2 k3 k4.1 k4.2.1 k4.2.2⟩, fun k hk => ?_, k4.2.1, k4.2.2⟩
  refine k3 _ ?_
  revert k hk
  rcases hc with hc | hc <;> rw [hc] <;> decide

/-- C104: an event or todo that was read (as in C65) can be cloned, and the clone can be changed in any way that lasts,
its lists included, for which nothing is known about parameters: it is written, and what is written is read as the same. -/
theorem C104_edited (L : Lib) (hU : UtcOk L) (hW : WholeOffsets L) (c : Cls) (hc : c = .event ∨ c = .todo)
    (items : List Item) (zones zs : List (Str × Nat)) (o : EntryObj) (ctx : Ctx)
    (h : loadEntry L c items (some zones) = .ok (o, ctx)) (hl : SafeEntryItems c items) (ho : SafeEntry L zs o) :
    ∃ o', o.clone L = .ok o' ∧ o'.extraParams = [] ∧ ∀ (chs : List (Change Alarm)) (o1 : EntryObj),
      o'.changes L chs = .ok o1 → LastingEntry L zs o1 (chs.map Change.attr) →
      ∃ items' used, dumpEntry L o1 { ctx := some [] } = .ok (.cont c.icsName items', { ctx := some used }) ∧
        (∀ n z, dictGet? used n = some z → dictGet? zs n = some z) ∧
        ∀ zones', (∀ n z, dictGet? used n = some z → Knows L zones' n z) →
          ∃ o2 ctx', loadEntry L c items' (some zones') = .ok (o2, ctx') ∧ SameEntry L o1 o2 := by
  have hcls : o.cls = c := (loadObj_frame h).1
  obtain ⟨o', k1, k2, _, _, k3⟩ := C104_clone L zs o (entry_rep hU hW hc h hl ho)
  have hcls' : o'.cls = o.cls := by
    unfold Obj.clone at k1
    cases ha : cloneAttrs L o o.cls.attrChecks with
    | error e => rw [ha] at k1; cases k1
    | ok a => rw [ha] at k1; cases k1; rfl
  refine ⟨o', k1, k3, fun chs o1 hch hlast => ?_⟩
  obtain ⟨items', used, j1, j2, j3⟩ := C41_roundtrip_partial L hU zs o1 (entry_changed k2 hch hlast)
  rw [(changes_frame hch).1, hcls', hcls] at j1 j3
  exact ⟨items', used, j1, j2, j3⟩

theorem attendees_conv {cv : Conv} (hcv : cv ∈ Cls.event.convs) (hof : cv.Of "attendees".toList) :
    cv = .value ⟨"attendees".toList, "ATTENDEE".toList, true, false, [.attendee], .list⟩ := by
  have : cv ∈ Cls.event.convs.filter fun cv => (Conv.attrChecks .event cv).any fun x => x.1 = "attendees".toList := by
    rw [List.mem_filter]
    refine ⟨hcv, ?_⟩
    cases cv <;> simp_all [Conv.Of, Conv.attrChecks]
  rw [show (Cls.event.convs.filter fun cv => (Conv.attrChecks .event cv).any fun x => x.1 = "attendees".toList) =
    [.value ⟨"attendees".toList, "ATTENDEE".toList, true, false, [.attendee], .list⟩] by decide +kernel] at this
  exact List.mem_singleton.1 this

/-- C104: so any number of attendees can be added to the clone of an event. -/
theorem C104_attendees (L : Lib) (hU : UtcOk L) (hW : WholeOffsets L)
    (items : List Item) (zones zs : List (Str × Nat)) (o : EntryObj) (ctx : Ctx)
    (h : loadEntry L .event items (some zones) = .ok (o, ctx)) (hl : SafeEntryItems .event items) (ho : SafeEntry L zs o)
    (ps : List (Url × Params)) (hps : ∀ p ∈ ps, RepUrl L p.1 ∧ ',' ∉ p.1.geturl ∧ RepPerson p.2 ∧
      "__merge_next".toList ∉ p.2.map Prod.fst) :
    ∃ o' o1 l, o.clone L = .ok o' ∧ o.get "attendees".toList = .many l ∧
      o'.changes L (ps.map fun p => .addAttendee (.person true (.url p.1) p.2)) = .ok o1 ∧
      o1.get "attendees".toList = .many (l ++ ps.map fun p => .person true (.url p.1) p.2) ∧
      ∃ items' used, dumpEntry L o1 { ctx := some [] } = .ok (.cont "VEVENT".toList items', { ctx := some used }) ∧
        (∀ n z, dictGet? used n = some z → dictGet? zs n = some z) ∧
        ∀ zones', (∀ n z, dictGet? used n = some z → Knows L zones' n z) →
          ∃ o2 ctx', loadEntry L .event items' (some zones') = .ok (o2, ctx') ∧ SameEntry L o1 o2 := by
  have hcls : o.cls = .event := (loadObj_frame h).1
  have hrep := entry_rep hU hW (.inl rfl) h hl ho
  obtain ⟨o', k1, k2, k4, _, k3⟩ := C104_clone L zs o hrep
  obtain ⟨o'', k1', _, k5⟩ := C104_edited L hU hW .event (.inl rfl) items zones zs o ctx h hl ho
  obtain rfl : o'' = o' := by
    rw [k1] at k1'
    cases k1'
    rfl
  have spec : Conv.value ⟨"attendees".toList, "ATTENDEE".toList, true, false, [.attendee], .list⟩ ∈ Cls.event.convs := by decide
  obtain ⟨groups, g1, g2, _⟩ := hrep.2.multi _ (hcls ▸ spec) rfl
  have hget : o''.get "attendees".toList = .many (groups.map Prod.snd).flatten :=
    (k4 "attendees" (by rw [hcls]; decide)).trans g2
  have run : ∀ (ps : List (Url × Params)) (p : EntryObj) (l : List (Val Alarm)), p.get "attendees".toList = .many l →
      ∃ p1, p.changes L (ps.map fun q => .addAttendee (.person true (.url q.1) q.2)) = .ok p1 ∧
        p1.get "attendees".toList = .many (l ++ ps.map fun q => .person true (.url q.1) q.2) := by
    intro ps
    induction ps with
    | nil => exact fun p l hp => ⟨p, rfl, by rw [hp]; simp⟩
    | cons q ps ih =>
      intro p l hp
      have hg1 : Obj.get { p with attrs := dictSet p.attrs "attendees".toList (.many (l ++ [.person true (.url q.1) q.2])) }
          "attendees".toList = .many (l ++ [.person true (.url q.1) q.2]) := by
        unfold Obj.get
        dsimp only
        rw [dictGet_set]
        rfl
      obtain ⟨p1, j1, j2⟩ := ih _ _ hg1
      refine ⟨p1, ?_, by rw [j2]; simp⟩
      simp only [List.map_cons, Obj.changes, Obj.change, Obj.addAttendee, hp]
      exact j1
  obtain ⟨o1, r1, r2⟩ := run ps o'' _ hget
  obtain ⟨f1, _, _, f4, _⟩ := changes_frame r1
  refine ⟨o'', o1, _, k1, g2, r1, r2, k5 _ o1 r1 fun a ha cv hcv hof => ?_⟩
  obtain ⟨ch, hch, rfl⟩ := List.mem_map.1 ha
  obtain ⟨q, _, rfl⟩ := List.mem_map.1 hch
  have hc1 : o1.cls = .event := by
    rw [f1]
    unfold Obj.clone at k1
    cases ha : cloneAttrs L o o.cls.attrChecks with
    | error e => rw [ha] at k1; cases k1
    | ok a => rw [ha] at k1; cases k1; exact hcls
  rw [hc1] at hcv
  rw [attendees_conv hcv hof]
  unfold Lasting
  dsimp only
  rw [if_pos rfl]
  refine ⟨by rw [f4, k3]; rfl, _, r2, fun v hv => ?_⟩
  rcases List.mem_append.1 hv with hv | hv
  · obtain ⟨vs, hvs, hv⟩ := List.mem_flatten.1 hv
    obtain ⟨g, hgm, rfl⟩ := List.mem_map.1 hvs
    have hG := g1 g hgm
    obtain ⟨c, hc⟩ := hG.same
    refine ⟨by simp, List.nodup_nil, ⟨List.not_mem_nil, List.not_mem_nil⟩, ⟨c, fun w hw => ?_⟩, fun u hu => ?_,
      fun a u x hu => ?_⟩
    · rw [List.mem_singleton.1 hw]
      exact hc v hv
    · exact hG.url u (List.mem_singleton.1 hu ▸ hv)
    · obtain ⟨a1, a2, _, _⟩ := hG.attendee a u x (List.mem_singleton.1 hu ▸ hv)
      exact ⟨a1, a2, rfl, rfl⟩
  · obtain ⟨q, hq, rfl⟩ := List.mem_map.1 hv
    obtain ⟨q1, q2, q3, q4⟩ := hps q hq
    refine ⟨by simp, List.nodup_nil, ⟨List.not_mem_nil, List.not_mem_nil⟩, ⟨.attendee, fun w hw => ?_⟩, fun u hu => ?_,
      fun a u x hu => ?_⟩
    · rw [List.mem_singleton.1 hw]
      exact ⟨rfl, q1, q3⟩
    · cases List.mem_singleton.1 hu
    · cases List.mem_singleton.1 hu
      exact ⟨q2, q4, rfl, rfl⟩

/-- The event of the example text has an attendee; its clone gets two more, and survives. -/
example : ∃ o ctx o' o1 items' used, loadEntry exLib .event exEventItems (some [("X/Y".toList, 1)]) = .ok (o, ctx) ∧
    o.clone exLib = .ok o' ∧
    o'.changes exLib [.addAttendee (.person true (.url ⟨"mailto".toList, [], "e@f".toList, [], [], []⟩) []),
      .addAttendee (.person true (.url ⟨"mailto".toList, [], "g@h".toList, [], [], []⟩) [])] = .ok o1 ∧
    dumpEntry exLib o1 { ctx := some [] } = .ok (.cont "VEVENT".toList items', { ctx := some used }) ∧
    ∃ o2 ctx', loadEntry exLib .event items' (some [("X/Y".toList, 1)]) = .ok (o2, ctx') ∧ SameEntry exLib o1 o2 := by
  have key : ((loadEntry exLib .event exEventItems (some [("X/Y".toList, 1)])).toOption.map fun r =>
      safeObjB exLib [("X/Y".toList, 1)] (safeObjB exLib [("X/Y".toList, 1)] fun _ => true) r.1) = some true := by
    decide +kernel
  cases h : loadEntry exLib .event exEventItems (some [("X/Y".toList, 1)]) with
  | error e =>
    rw [h] at key
    cases key
  | ok r =>
    rw [h] at key
    obtain ⟨o, ctx⟩ := r
    have key := Option.some.inj key
    obtain ⟨o', o1, l, k1, _, k2, _, items', used, k3, k4, k5⟩ := C104_attendees exLib exLib_utc exLib_whole exEventItems _
      [("X/Y".toList, 1)] o ctx h exEventItems_safe (safeObj_of (fun _ h => safeObj_of (fun _ _ => trivial) h) key)
      [(⟨"mailto".toList, [], "e@f".toList, [], [], []⟩, []), (⟨"mailto".toList, [], "g@h".toList, [], [], []⟩, [])] (by
        intro p hp
        rcases List.mem_cons.1 hp with rfl | hp
        · exact ⟨by unfold RepUrl; decide +kernel, by decide +kernel, ⟨List.nodup_nil, List.not_mem_nil⟩, List.not_mem_nil⟩
        · rw [List.mem_singleton.1 hp]
          exact ⟨by unfold RepUrl; decide +kernel, by decide +kernel, ⟨List.nodup_nil, List.not_mem_nil⟩, List.not_mem_nil⟩)
    exact ⟨o, ctx, o', o1, items', used, rfl, k1, k2, k3, k5 _ fun n z hz => .inl (k4 n z hz)⟩

end Ics
