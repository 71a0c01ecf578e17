import Verif.Spec.Session
import Verif.Props.CalEdited
import Verif.Props.CalNormalize
import Verif.Props.TimeEdit
import Verif.Props.SameTimeline
import Verif.Props.CloneTrip
import Verif.Proofs.Strip

/-
C107: any mixture of operations between reading and writing.
-/
namespace Ics

/-- Changing times does not change whether an event or todo can be written. -/
theorem writable_timeEdited {L : Lib} (hL : WritableLib L) {cs : List Edit} {m m1 : EntryObj}
    (hc : m.cls = .event ∨ m.cls = .todo) (hw : WritableEntry L m) (h : m.timeEdits L cs = .ok m1) : WritableEntry L m1 := by
  induction cs generalizing m with
  | nil => cases h; exact hw
  | cons c cs ih =>
    rw [Obj.timeEdits] at h
    obtain ⟨m', h1, h2⟩ := bind_ok_iff.1 h
    obtain ⟨s, t, _, _, k3, k4, _, _⟩ := timeEdit_parts hc h1
    have hch : m.changes L [.assign "timespan".toList (.one (.span t))] = .ok m' := by
      simp only [Obj.changes, k3]
      rfl
    refine ih ((change_frame k3).1 ▸ hc) (writable_changed hw hch fun ch hm => ?_) h2
    rw [List.mem_singleton.1 hm]
    show WritableAttr _ _ (m'.get "timespan".toList)
    rw [k4]
    exact ⟨fun d _ t z _ hz => hL.zones t z hz, fun d _ t z _ hz => hL.zones t z hz⟩

/-- What an operation on times does. -/
theorem times_parts {L : Lib} {o o1 : CalObj} {list : CalList} {i : Nat} {cs : List Edit}
    (h : o.calOp L (.times list i cs) = .ok o1) :
    ∃ l m m1, o.get list.attr = .many l ∧ l[i]? = some (.comp m) ∧ m.timeEdits L cs = .ok m1 ∧
      o1 = { o with attrs := dictSet o.attrs list.attr (.many (l.set i (.comp m1))) } := by
  simp only [Obj.calOp] at h
  split at h
  · rename_i l hg
    split at h
    · rename_i m hm
      obtain ⟨m1, h1, e⟩ := bind_ok_iff.1 h
      cases e
      exact ⟨l, m, m1, hg, hm, h1, rfl⟩
    · cases h
    · cases h
  · cases h

theorem calList_got {o : CalObj} {list : CalList} {v : AttrVal EntryObj} :
    Obj.get { o with attrs := dictSet o.attrs list.attr v } list.attr = v := by
  unfold Obj.get
  dsimp only
  rw [dictGet_set]
  rfl

theorem cloneAttrs_keys {σ : Type} {L : Lib} {o : Obj σ} {cs : List (Str × Check)} {vs : List (Str × AttrVal σ)}
    (h : cloneAttrs L o cs = .ok vs) : vs.map Prod.fst = cs.map Prod.fst := by
  induction cs generalizing vs with
  | nil => cases h; rfl
  | cons p cs ih =>
    simp only [cloneAttrs, bind_ok_iff] at h
    obtain ⟨v, _, ws, h2, e⟩ := h
    cases e
    rw [List.map_cons, List.map_cons, ih h2]

theorem entry_names {c : Cls} (hc : c = .event ∨ c = .todo) : ∀ k ∈ c.attrChecks.map Prod.fst,
    k ∈ (allAttrs c).map String.toList := by
  rcases hc with rfl | rfl <;> decide +kernel

/-- A clone can be written. -/
theorem writable_clone {L : Lib} {zs : List (Str × Nat)} {m c : EntryObj} (hr : RepEntry L zs m) (hw : WritableEntry L m)
    (h : m.clone L = .ok c) : RepEntry L zs c ∧ c.cls = m.cls ∧ WritableEntry L c := by
  obtain ⟨c', k1, k2, k3, k4, k5⟩ := C104_clone L zs m hr
  rw [h] at k1
  cases k1
  obtain ⟨hc, hw⟩ := hw
  have keys : c.cls = m.cls ∧ c.extraName = m.cls.icsName ∧ ∀ k, k ∉ m.cls.attrChecks.map Prod.fst → c.get k = .none := by
    unfold Obj.clone at h
    obtain ⟨vs, h1, e⟩ := bind_ok_iff.1 h
    cases e
    refine ⟨rfl, rfl, fun k hk => ?_⟩
    unfold Obj.get
    dsimp only
    rw [dictGet_eq_none.2 (by rw [cloneAttrs_keys h1]; exact hk)]
    rfl
  have got : ∀ k, c.get k = .none ∨ c.get k = m.get k := by
    intro k
    by_cases hk : k ∈ m.cls.attrChecks.map Prod.fst
    · obtain ⟨s, hs, rfl⟩ := List.mem_map.1 (entry_names hc k hk)
      exact .inr (k3 s hs)
    · exact .inl (keys.2.2 k hk)
  refine ⟨k2, keys.1, by rw [keys.1]; exact hc, ?_, ?_, fun k v hv => ?_, fun k l hv => ?_, ?_, ?_⟩
  · rw [keys.2.1, ← hr.2.name]
    exact hw.name
  · rw [k4]
    trivial
  · rcases got k with e | e
    · rw [hv] at e; cases e
    · exact hw.one k v (e ▸ hv)
  · rcases got k with e | e
    · rw [hv] at e; cases e
    · exact hw.many k l (e ▸ hv)
  · rw [k5]
    exact fun k p hp => nomatch hp
  · rw [k5]
    exact fun k p hp => nomatch hp

/-- Unknown properties are independent of everything else. -/
theorem rep_putExtra {σ : Type} {L : Lib} {zs : List (Str × Nat)} {M : Str → σ → Prop} {o : Obj σ} (h : RepObj L zs M o)
    {items : List Item} (hi : ∀ i ∈ items, unhandled o.cls i = true) : RepObj L zs M { o with extra := items } :=
  ⟨h.cls, h.name, hi, h.single,
    fun s hs hm => by
      obtain ⟨g, h1, h2, h3⟩ := h.multi s hs hm
      exact ⟨g, h1, h2, h3⟩,
    h.members,
    fun ht => by
      obtain ⟨s, hs⟩ := h.time ht
      exact ⟨s, hs.get, hs.cls, hs.valid, hs.timed, hs.begin, hs.end_, hs.dur, hs.beginParams, hs.endParams, hs.dueParams,
        hs.durParams⟩,
    h.action⟩

theorem writable_putExtra {σ : Type} {L : Lib} {M : σ → Prop} {o : Obj σ} (h : WritableObj L M o) {items : List Item}
    (hi : WritableTrees items) : WritableObj L M { o with extra := items } :=
  ⟨h.name, hi, h.one, h.many, h.params, h.listParams⟩

/-- What an assignment of unknown properties in an event or todo does. -/
theorem putExtra_parts {o o1 : CalObj} {list : CalList} {i : Nat} {items : List Item}
    (h : o.putExtra (some (list, i)) items = .ok o1) :
    ∃ l m, o.get list.attr = .many l ∧ l[i]? = some (.comp m) ∧
      o1 = { o with attrs := dictSet o.attrs list.attr (.many (l.set i (.comp { m with extra := items }))) } := by
  simp only [Obj.putExtra] at h
  split at h
  · rename_i l hg
    split at h
    · rename_i m hm
      cases h
      exact ⟨l, m, hg, hm, rfl⟩
    · cases h
    · cases h
  · cases h

theorem comp_getElem {ms : List EntryObj} {i : Nat} {m : EntryObj} (hm : (ms.map Val.comp)[i]? = some (.comp m)) :
    ms[i]? = some m := by
  rw [List.getElem?_map] at hm
  obtain ⟨m', hm', e⟩ := Option.map_eq_some_iff.1 hm
  cases e
  exact hm'

theorem fine_putExtra {L : Lib} {zs : List (Str × Nat)} {o o1 : CalObj} (h : Fine L zs o) {place : Option (CalList × Nat)}
    {items : List Item} (hp : o.putExtra place items = .ok o1) (hw : WritableTrees items)
    (hi : ∀ i ∈ items, unhandled (placeCls place) i = true) : Fine L zs o1 := by
  match place with
  | none =>
    cases hp
    exact ⟨⟨h.1.1, rep_putExtra h.1.2 (h.1.1 ▸ hi)⟩, writable_putExtra h.2 hw⟩
  | some (list, i) =>
    obtain ⟨l, m, hg, hm, rfl⟩ := putExtra_parts hp
    obtain ⟨ms, hg', hms⟩ := fine_members h list
    rw [hg] at hg'
    cases hg'
    obtain ⟨k1, k2, k3⟩ := hms m (List.mem_of_getElem? (comp_getElem hm))
    refine fine_list h list (ms.set i { m with extra := items }) (List.map_set).symm fun x hmem => ?_
    rcases List.mem_or_eq_of_mem_set hmem with hmem | rfl
    · exact hms x hmem
    · refine ⟨⟨k1.1, rep_putExtra k1.2 ?_⟩, k2, k3.1, writable_putExtra k3.2 hw⟩
      rw [k2]
      cases list <;> exact hi

/-- What `strip_extras` with lasting arguments leaves. -/
theorem strip_parts {σ : Type} {a : StripArgs} {o o1 : Obj σ} (h : stripExtras a o = .ok o1)
    (ha : a.extraParams.getD a.allExtras = true ∨ a.propertyMerging.getD a.allExtras = false) :
    ∃ o', (o' = o ∨ o' = { o with extra := [] }) ∧ (o1 = o' ∨ o1 = { o' with extraParams := [] }) := by
  unfold stripExtras at h
  simp only at h
  split at h
  · cases h
  · cases h
    refine ⟨if a.extraProperties.getD a.allExtras then { o with extra := [] } else o, ?_, ?_⟩
    · split
      · exact .inr rfl
      · exact .inl rfl
    · unfold stripParams
      rcases ha with e | e
      · rw [e]
        exact .inr rfl
      · rw [e]
        cases a.extraParams.getD a.allExtras
        · exact .inl rfl
        · exact .inr rfl

theorem rep_strip {σ : Type} {L : Lib} {zs : List (Str × Nat)} {M : Str → σ → Prop} {N : σ → Prop} {a : StripArgs} {o o1 : Obj σ}
    (h : stripExtras a o = .ok o1) (ha : a.extraParams.getD a.allExtras = true ∨ a.propertyMerging.getD a.allExtras = false)
    (hr : RepObj L zs M o) (hw : WritableObj L N o) : o1.cls = o.cls ∧ RepObj L zs M o1 ∧ WritableObj L N o1 := by
  obtain ⟨o', h1, h2⟩ := strip_parts h ha
  have k : o'.cls = o.cls ∧ RepObj L zs M o' ∧ WritableObj L N o' := by
    rcases h1 with rfl | rfl
    · exact ⟨rfl, hr, hw⟩
    · exact ⟨rfl, repObj_extra hr, writable_putExtra hw (by trivial)⟩
  rcases h2 with rfl | rfl
  · exact k
  · exact ⟨k.1, repObj_noParams k.2.1, k.2.2.name, k.2.2.extra, k.2.2.one, k.2.2.many, fun _ _ h => (nomatch h),
      fun _ _ h => (nomatch h)⟩

theorem stripAt_parts {o o1 : CalObj} {list : CalList} {i : Nat} {a : StripArgs}
    (h : o.stripAt (some (list, i)) a = .ok o1) :
    ∃ l m m1, o.get list.attr = .many l ∧ l[i]? = some (.comp m) ∧ stripExtras a m = .ok m1 ∧
      o1 = { o with attrs := dictSet o.attrs list.attr (.many (l.set i (.comp m1))) } := by
  simp only [Obj.stripAt] at h
  split at h
  · rename_i l hg
    split at h
    · rename_i m hm
      obtain ⟨m1, h1, e⟩ := bind_ok_iff.1 h
      cases e
      exact ⟨l, m, m1, hg, hm, h1, rfl⟩
    · cases h
    · cases h
  · cases h

theorem fine_strip {L : Lib} {zs : List (Str × Nat)} {o o1 : CalObj} (h : Fine L zs o) {place : Option (CalList × Nat)}
    {a : StripArgs} (hp : o.stripAt place a = .ok o1)
    (ha : a.extraParams.getD a.allExtras = true ∨ a.propertyMerging.getD a.allExtras = false) : Fine L zs o1 := by
  match place with
  | none =>
    obtain ⟨k1, k2, k3⟩ := rep_strip hp ha h.1.2 h.2
    exact ⟨⟨k1.trans h.1.1, k2⟩, k3⟩
  | some (list, i) =>
    obtain ⟨l, m, m1, hg, hm, hs, rfl⟩ := stripAt_parts hp
    obtain ⟨ms, hg', hms⟩ := fine_members h list
    rw [hg] at hg'
    cases hg'
    obtain ⟨k1, k2, k3⟩ := hms m (List.mem_of_getElem? (comp_getElem hm))
    refine fine_list h list (ms.set i m1) (List.map_set).symm fun x hmem => ?_
    rcases List.mem_or_eq_of_mem_set hmem with hmem | rfl
    · exact hms x hmem
    · obtain ⟨q1, q2, q3⟩ := rep_strip hs ha k1.2 k3.2
      exact ⟨⟨by rw [q1]; exact k1.1, q2⟩, q1.trans k2, by rw [q1]; exact k3.1, q3⟩

theorem fine_op {L : Lib} (hW : WholeOffsets L) (hB : BoundedOffsets L) (hL : WritableLib L) {zs : List (Str × Nat)}
    {o o1 : CalObj} (h : Fine L zs o) {p : CalOp} (hp : o.calOp L p = .ok o1) (hl : LastingOp L zs o o1 p) : Fine L zs o1 := by
  cases p with
  | edit e => exact fine_edit h hp hl
  | extra place items => exact fine_putExtra h hp hl.1 hl.2
  | strip place a => exact fine_strip h hp hl
  | normalize n =>
    obtain ⟨⟨z, h1, h2, h3⟩, h4⟩ := hl
    exact fine_normalized hW hL h1 h2 h3 h hp h4
  | copy list i =>
    obtain ⟨ms, hg, hms⟩ := fine_members h list
    simp only [Obj.calOp, hg] at hp
    split at hp
    · rename_i m hm
      obtain ⟨c, h1, e⟩ := bind_ok_iff.1 hp
      cases e
      have hmem : m ∈ ms := by
        rw [List.getElem?_map] at hm
        obtain ⟨m', hm', e⟩ := Option.map_eq_some_iff.1 hm
        cases e
        exact List.mem_of_getElem? hm'
      obtain ⟨k1, k2, k3⟩ := hms m hmem
      obtain ⟨q1, q2, q3⟩ := writable_clone k1 k3 h1
      refine fine_list h list (ms ++ [c]) (by simp) fun x hx => ?_
      rcases List.mem_append.1 hx with hx | hx
      · exact hms x hx
      · rw [List.mem_singleton.1 hx]
        exact ⟨q1, q2.trans k2, q3⟩
    · cases hp
    · cases hp
  | times list i cs =>
    obtain ⟨l, m, m1, hg, hm, h1, rfl⟩ := times_parts hp
    obtain ⟨ms, hg', hms⟩ := fine_members h list
    rw [hg] at hg'
    cases hg'
    have hm' : ms[i]? = some m := by
      rw [List.getElem?_map] at hm
      obtain ⟨m', hm', e⟩ := Option.map_eq_some_iff.1 hm
      cases e
      exact hm'
    obtain ⟨hi, _⟩ := List.getElem?_eq_some_iff.1 hm
    obtain ⟨hcs, hl⟩ := hl
    obtain ⟨s, t, q1, q2, q3, q4, q5, q6⟩ := hl _ _ m m1 hg hm calList_got (List.getElem?_set_self hi)
    obtain ⟨k1, k2, k3⟩ := hms m (List.mem_of_getElem? hm')
    refine fine_list h list (ms.set i m1) (List.map_set).symm fun x hmem => ?_
    rcases List.mem_or_eq_of_mem_set hmem with hmem | rfl
    · exact hms x hmem
    · obtain ⟨r1, r2⟩ := rep_timeEdited hW hB k1 q1 q3 hcs h1 q2 q4 q5 q6
      exact ⟨r1, r2.trans k2, writable_timeEdited hL k1.1 k3 h1⟩

theorem fine_ops {L : Lib} (hW : WholeOffsets L) (hB : BoundedOffsets L) (hL : WritableLib L) {zs : List (Str × Nat)}
    {ps : List CalOp} {o : CalObj} (h : Fine L zs o) (hl : LastingOps L zs o ps) :
    ∃ o1, o.calOps L ps = .ok o1 ∧ Fine L zs o1 := by
  induction ps generalizing o with
  | nil => exact ⟨o, rfl, h⟩
  | cons p ps ih =>
    obtain ⟨o1, h1, h2, h3⟩ := hl
    obtain ⟨o2, k1, k2⟩ := ih (fine_op hW hB hL h h1 h2) h3
    refine ⟨o2, ?_, k2⟩
    rw [Obj.calOps, h1]
    exact k1

/-- What was read from a text is fine. -/
theorem fine_read {L : Lib} (hU : UtcOk L) (hW : WholeOffsets L) (hL : WritableLib L) {txt : Str} {o : CalObj}
    (h : calendarOfString L txt = .ok o)
    (hl : ∀ is, stringToContainers txt = Gen.done [.cont "VCALENDAR".toList is] → SafeCalendarItems is)
    {zs : List (Str × Nat)} (ho : SafeCalendar L zs o) : Fine L zs o := by
  obtain ⟨is, h1, h2⟩ := C58_one L txt o h
  have hi : WritableTree (.cont "VCALENDAR".toList is) :=
    item_good (txt := txt) (by rw [h1]; exact List.mem_singleton_self _) fun cl => nofun
  rw [WritableTree] at hi
  exact ⟨calendar_rep hU hW h2 (hl is h1) ho, calendar_writable hL hi.2 h2 (hl is h1)⟩

/-- C107: a file is read (as in C65); then come any number of operations in any order: attributes are assigned, events and
todos are changed, appended, deleted and cloned, their times are changed, unknown properties are added and removed, extras are
stripped, and the whole calendar is normalized, each time in a way that lasts.  Then the calendar can be written with every line wrapping, and what is written is read as the calendar that there
was at the end, up to quotation marks around parameter values.

Missing for the full claim: see `C103_attendee_fails` and `C107_unset_fails`. -/
theorem C107_text_partial (L : Lib) (hU : UtcOk L) (hW : WholeOffsets L) (hB : BoundedOffsets L) (hL : WritableLib L) (txt : Str)
    (o : CalObj) (h : calendarOfString L txt = .ok o)
    (hl : ∀ is, stringToContainers txt = Gen.done [.cont "VCALENDAR".toList is] → SafeCalendarItems is)
    (zs : List (Str × Nat)) (ho : SafeCalendar L zs o) (hz : ∀ n z, dictGet? zs n = some z → ZoneTrip L z)
    (ps : List CalOp) (hps : LastingOps L zs o ps) (w : Wrap) (hw : match w with | .none => True | .width _ W => 1 ≤ W) :
    ∃ o1 txt' o2, o.calOps L ps = .ok o1 ∧ serializeCalendar L w o1 = .ok txt' ∧ calendarOfString L txt' = .ok o2 ∧
      SameCalendar L (unquoteCalendar o1) (unquoteCalendar o2) := by
  obtain ⟨o1, k1, k2, k3⟩ := fine_ops hW hB hL (fine_read hU hW hL h hl ho) hps
  obtain ⟨txt', o2, k4, k5, k6⟩ := cal_text hU k2 hz k3 w hw
  exact ⟨o1, txt', o2, k1, k4, k5, k6⟩

theorem timeEdit_frame {L : Lib} {m m1 : EntryObj} {c : Edit} (h : m.timeEdit L c = .ok m1) :
    m1.cls = m.cls ∧ m1.extraName = m.extraName ∧ m1.extra = m.extra ∧ m1.extraParams = m.extraParams ∧
      ∀ a, a ≠ "timespan".toList → m1.get a = m.get a := by
  unfold Obj.timeEdit at h
  split at h
  · split at h
    · cases h
      refine ⟨rfl, rfl, rfl, rfl, fun a ha => ?_⟩
      unfold Obj.get
      dsimp only
      rw [dictGet_set_ne _ _ ha]
    · cases h
  · cases h

theorem timeEdits_frame {L : Lib} {cs : List Edit} {m m1 : EntryObj} (h : m.timeEdits L cs = .ok m1) :
    m1.cls = m.cls ∧ m1.extraName = m.extraName ∧ m1.extra = m.extra ∧ m1.extraParams = m.extraParams ∧
      ∀ a, a ≠ "timespan".toList → m1.get a = m.get a := by
  induction cs generalizing m with
  | nil => cases h; exact ⟨rfl, rfl, rfl, rfl, fun _ _ => rfl⟩
  | cons c cs ih =>
    rw [Obj.timeEdits] at h
    obtain ⟨m', h1, h2⟩ := bind_ok_iff.1 h
    obtain ⟨a1, a2, a3, a4, a5⟩ := timeEdit_frame h1
    obtain ⟨b1, b2, b3, b4, b5⟩ := ih h2
    exact ⟨b1.trans a1, b2.trans a2, b3.trans a3, b4.trans a4, fun a ha => (b5 a ha).trans (a5 a ha)⟩

/-- C107: changing the times of one event or todo changes nothing else: not its other attributes, parameters and unknown
properties, not the other events and todos, nothing in the rest of the calendar. -/
theorem C107_others (L : Lib) (o o1 : CalObj) (list : CalList) (i : Nat) (cs : List Edit)
    (h : o.calOp L (.times list i cs) = .ok o1) :
    ∃ l l1 m m1, o.get list.attr = .many l ∧ o1.get list.attr = .many l1 ∧ l1.length = l.length ∧
      (∀ j, j ≠ i → l1[j]? = l[j]?) ∧ l[i]? = some (.comp m) ∧ l1[i]? = some (.comp m1) ∧
      m1.cls = m.cls ∧ m1.extraName = m.extraName ∧ m1.extra = m.extra ∧ m1.extraParams = m.extraParams ∧
      (∀ a, a ≠ "timespan".toList → m1.get a = m.get a) ∧
      (∀ a, a ≠ list.attr → o1.get a = o.get a) ∧ o1.cls = o.cls ∧ o1.extraName = o.extraName ∧ o1.extra = o.extra ∧
      o1.extraParams = o.extraParams := by
  obtain ⟨l, m, m1, hg, hm, h1, rfl⟩ := times_parts h
  obtain ⟨hi, _⟩ := List.getElem?_eq_some_iff.1 hm
  obtain ⟨f1, f2, f3, f4, f5⟩ := timeEdits_frame h1
  refine ⟨l, _, m, m1, hg, calList_got, by simp, fun j hj => List.getElem?_set_ne (fun e => hj e.symm), hm,
    List.getElem?_set_self hi, f1, f2, f3, f4, f5, fun a ha => ?_, rfl, rfl, rfl, rfl⟩
  unfold Obj.get
  dsimp only
  rw [dictGet_set_ne _ _ ha]

/-- C107: appending a clone of an event or todo leaves all that was there, and the last event or todo is then the clone (see
C104 for what it has in common with the original). -/
theorem C107_copied (L : Lib) (o o1 : CalObj) (list : CalList) (i : Nat) (h : o.calOp L (.copy list i) = .ok o1) :
    ∃ l m c, o.get list.attr = .many l ∧ l[i]? = some (.comp m) ∧ m.clone L = .ok c ∧
      o1.get list.attr = .many (l ++ [.comp c]) ∧ (∀ a, a ≠ list.attr → o1.get a = o.get a) ∧ o1.cls = o.cls ∧
      o1.extraName = o.extraName ∧ o1.extra = o.extra ∧ o1.extraParams = o.extraParams := by
  simp only [Obj.calOp] at h
  split at h
  · rename_i l hg
    split at h
    · rename_i m hm
      obtain ⟨c, h1, e⟩ := bind_ok_iff.1 h
      cases e
      refine ⟨l, m, c, hg, hm, h1, calList_got, fun a ha => ?_, rfl, rfl, rfl, rfl⟩
      unfold Obj.get
      dsimp only
      rw [dictGet_set_ne _ _ ha]
    · cases h
    · cases h
  · cases h

/-- C107: operations are carried out in their order. -/
theorem C107_order (L : Lib) (o : CalObj) (ps qs : List CalOp) :
    o.calOps L (ps ++ qs) = match o.calOps L ps with
      | .ok o1 => o1.calOps L qs
      | .error e => .error e := by
  induction ps generalizing o with
  | nil => rfl
  | cons p ps ih =>
    show (o.calOp L p >>= fun o => o.calOps L (ps ++ qs)) = match (o.calOp L p >>= fun o => o.calOps L ps) with
      | .ok o1 => o1.calOps L qs
      | .error e => .error e
    cases o.calOp L p with
    | error e => rfl
    | ok o1 => exact ih o1

/-- No time that is read has the precision `seconds`. -/
theorem read_prec {L : Lib} {c : Cls} (hc : c = .event ∨ c = .todo) {items : List Item} {zones : List (Str × Nat)} {m : EntryObj}
    {ctx : Ctx} (h : loadEntry L c items (some zones) = .ok (m, ctx)) {sp : Span} (hg : m.get "timespan".toList = .one (.span sp)) :
    sp.prec ≠ .other "seconds".toList := by
  intro hsp
  obtain ⟨s, g1, _, _, said⟩ := load_time (fun _ items => loadAlarm_stable L items) h (by rcases hc with e | e <;> rw [e] <;> decide)
  have g : m.get "timespan".toList = .one (.span s) := by
    unfold Obj.get
    rw [g1]
    rfl
  rw [hg] at g
  cases g
  by_cases hno : ∀ cl, .line cl ∈ items → ¬ (cl.name = "DTSTART".toList ∨ IsEnd cl)
  · have := said.noTime hno
    rw [hsp] at this
    cases this
  · obtain ⟨cl, hcl⟩ := not_forall.1 hno
    obtain ⟨h3, h4⟩ := _root_.not_imp.1 hcl
    obtain ⟨d, p, hsay⟩ := said.all cl h3 (not_not.1 h4)
    have := said.precision cl d p h3 (not_not.1 h4) hsay
    rw [hsp] at this
    cases hsay <;> cases this

theorem read_cls {L : Lib} {txt : Str} {o : CalObj} (h : calendarOfString L txt = .ok o) : o.cls = .calendar := by
  obtain ⟨is, _, h2⟩ := C58_one L txt o h
  simp only [loadCalendar, bind_ok_iff] at h2
  obtain ⟨avail, _, ⟨o', ctx1⟩, h2, e⟩ := h2
  cases e
  exact (loadObj_frame h2).1

/-- The events or todos of a calendar that was read. -/
theorem read_members {L : Lib} {txt : Str} {o : CalObj} (h : calendarOfString L txt = .ok o) (list : CalList) :
    ∃ ms : List EntryObj, o.get list.attr = .many (ms.map .comp) ∧
      ∀ m ∈ ms, ∃ items zones ctx, loadEntry L list.cls items (some zones) = .ok (m, ctx) := by
  obtain ⟨is, _, h2⟩ := C58_one L txt o h
  simp only [loadCalendar, bind_ok_iff] at h2
  obtain ⟨avail, _, ⟨o', ctx1⟩, h2, e⟩ := h2
  obtain rfl : o' = o := by cases e; rfl
  cases list with
  | events =>
    obtain ⟨ms, hg, hread⟩ := load_member (loadCalMember_stable L) rfl h2
      (show Conv.member "events".toList "VEVENT".toList ∈ Cls.calendar.convs by decide)
    refine ⟨ms, hg, fun m hm => ?_⟩
    obtain ⟨_, _, mis, mctx, _, hload⟩ := forall₂_mem hread m hm
    exact ⟨mis, avail, mctx, hload⟩
  | todos =>
    obtain ⟨ms, hg, hread⟩ := load_member (loadCalMember_stable L) rfl h2
      (show Conv.member "todos".toList "VTODO".toList ∈ Cls.calendar.convs by decide)
    refine ⟨ms, hg, fun m hm => ?_⟩
    obtain ⟨_, _, mis, mctx, _, hload⟩ := forall₂_mem hread m hm
    exact ⟨mis, avail, mctx, hload⟩

/-- C107 fails for `unset_all_day`: if this was the last operation on an event or todo of a calendar that was read, then no
text at all is read as that calendar. -/
theorem C107_unset_fails (L : Lib) (txt : Str) (o : CalObj) (h : calendarOfString L txt = .ok o) (list : CalList) (i : Nat)
    (o1 : CalObj) (h1 : o.calOp L (.times list i [.unsetAllDay]) = .ok o1) (txt' : Str) (o2 : CalObj)
    (h2 : calendarOfString L txt' = .ok o2) : ¬ SameCalendar L (unquoteCalendar o1) (unquoteCalendar o2) := by
  intro hsame
  have lc : list.cls = .event ∨ list.cls = .todo := by cases list <;> decide
  obtain ⟨l, m, m1, hg, hm, ht, rfl⟩ := times_parts h1
  obtain ⟨ms, hg', hms⟩ := read_members h list
  rw [hg] at hg'
  cases hg'
  have hmem : m ∈ ms := by
    rw [List.getElem?_map] at hm
    obtain ⟨m', hm', e⟩ := Option.map_eq_some_iff.1 hm
    cases e
    exact List.mem_of_getElem? hm'
  obtain ⟨_, _, _, hload⟩ := hms m hmem
  have hcls : m.cls = list.cls := (loadObj_frame hload).1
  have ht : m.timeEdit L .unsetAllDay = .ok m1 := by
    simp only [Obj.timeEdits, bind_ok_iff] at ht
    obtain ⟨m', k1, k2⟩ := ht
    cases k2
    exact k1
  obtain ⟨s, t, _, k2, k3, k4, _, _⟩ := timeEdit_parts (hcls ▸ lc) ht
  obtain ⟨_, e⟩ := mkSpan_ok.1 k2
  have hp : t.prec = .other "seconds".toList := by rw [← e]
  have hcls1 : m1.cls = list.cls := (change_frame k3).1.trans hcls
  obtain ⟨hi, _⟩ := List.getElem?_eq_some_iff.1 hm
  obtain ⟨ms2, hg2, hms2⟩ := read_members h2 list
  obtain ⟨k, hk, hk'⟩ : ∃ k : String, k.toList = list.attr ∧ k ∈ allAttrs .calendar := by
    cases list
    · exact ⟨"events", rfl, by decide⟩
    · exact ⟨"todos", rfl, by decide⟩
  have hc : o.cls = .calendar := read_cls h
  have h3 := hsame.attrs k (by
    show k ∈ allAttrs o.cls
    rw [hc]
    exact hk')
  unfold unquoteCalendar at h3
  rw [get_unquote, get_unquote, hk, calList_got, hg2] at h3
  cases h3 with
  | many h3 =>
    have h4 := (List.forall₂_iff_get.1 h3)
    have hl : i < (((ms.map Val.comp).set i (.comp m1)).map (Val.unquote unquoteEntry)).length := by simpa using hi
    have hl2 : i < ((ms2.map Val.comp).map (Val.unquote unquoteEntry)).length := h4.1 ▸ hl
    have h5 := h4.2 i hl hl2
    have hi2 : i < ms2.length := by simpa using hl2
    simp only [List.get_eq_getElem, List.getElem_map, List.getElem_set_self, Val.unquote] at h5
    have h6 : SameEntry L (unquoteEntry m1) (unquoteEntry ms2[i]) := by
      generalize unquoteEntry m1 = x at h5
      generalize unquoteEntry ms2[i] = y at h5
      cases h5 with
      | same => exact sameObj_refl _
      | comp h => exact h
    obtain ⟨s', g1, g2⟩ := same_timespan (hcls1 ▸ lc) k4 h6
    obtain ⟨_, _, _, hload2⟩ := hms2 ms2[i] (List.getElem_mem hi2)
    exact read_prec lc hload2 g1 (g2.prec.symm.trans hp)

/-- What the conditions of `LastingOps` say about the calendars in between, as a program. -/
def opsB (L : Lib) (o : CalObj) : List CalOp → Bool
  | [] => true
  | p :: rest =>
    match o.calOp L p with
    | .ok o1 => opsB L o1 rest && match p with
      | .edit _ => true
      | .times list i _ => match o.get list.attr, o1.get list.attr with
        | .many l, .many l1 => match l[i]?, l1[i]? with
          | some (.comp m), some (.comp m1) => timeEditB L m m1
          | _, _ => false
        | _, _ => false
      | .normalize _ => settledB L o1
      | .copy _ _ => true
      | .extra _ _ => true
      | .strip _ _ => true
    | .error _ => false

theorem ops_of {L : Lib} {zs : List (Str × Nat)} {ps : List CalOp} {o : CalObj} (h : opsB L o ps = true)
    (hp : ∀ p ∈ ps, match p with
      | .edit e => ∀ o1, LastingEdit L zs o1 e
      | .times _ _ cs => ∀ c ∈ cs, LastingTime L zs c
      | .normalize n => ∃ z, n.replacement = some (.zone z) ∧ L.Lawful (.zone z) ∧ RepZone L zs (some (.zone z))
      | .copy _ _ => True
      | .extra place items => WritableTrees items ∧ ∀ i ∈ items, unhandled (placeCls place) i = true
      | .strip _ a => a.extraParams.getD a.allExtras = true ∨ a.propertyMerging.getD a.allExtras = false) :
    LastingOps L zs o ps := by
  induction ps generalizing o with
  | nil => trivial
  | cons p ps ih =>
    rw [opsB] at h
    split at h
    · rename_i o1 h1
      rw [Bool.and_eq_true] at h
      refine ⟨o1, h1, ?_, ih h.1 fun p hm => hp p (List.mem_cons_of_mem _ hm)⟩
      have h2 := h.2
      have hp := hp p List.mem_cons_self
      cases p with
      | edit e => exact hp o1
      | normalize n => exact ⟨hp, settled_of h2⟩
      | copy list i => trivial
      | extra place items => exact hp
      | strip place a => exact hp
      | times list i cs =>
        refine ⟨hp, fun l l1 m m1 e1 e2 e3 e4 => ?_⟩
        dsimp only at h2
        rw [e1, e3] at h2
        dsimp only at h2
        rw [e2, e4] at h2
        exact timeEdit_of h2
    · cases h

/-- The todo of the example text is deleted, its event is cloned, moved, made all-day and given an unknown property, another event
is appended, and everything is moved to UTC. -/
def exSession : List CalOp :=
  [.edit (.delete .todos 0), .copy .events 0, .times .events 0 exTimeSteps,
    .extra (some (.events, 0)) [exLine "X-ROOM" "12"], .edit (.append .events exEventObj), .normalize exNorm]

theorem exSession_lasting {o : CalObj} (h : calendarOfString exLib exText = .ok o) :
    LastingOps exLib [("X/Y".toList, 1)] o exSession := by
  have key : ((calendarOfString exLib exText).toOption.map fun o => opsB exLib o exSession) = some true := by
    unfold calendarOfString
    rw [exText_items]
    decide +kernel
  rw [h] at key
  refine ops_of (Option.some.inj key) fun p hp => ?_
  simp only [exSession, List.mem_cons, List.not_mem_nil, or_false] at hp
  rcases hp with rfl | rfl | rfl | rfl | rfl | rfl
  · exact fun _ => trivial
  · trivial
  · exact exTimeSteps_lasting
  · exact ⟨trees_cons (exLine_writable (by decide +kernel) (by decide +kernel) (by decide +kernel)) writableTrees_nil, by decide⟩
  · exact fun _ => ⟨exEventObj_rep, rfl, exEventObj_writable⟩
  · exact ⟨2, rfl, exLib_utc_lawful, .inl (by decide)⟩

/-- `C107_text_partial` applies to the example text. -/
example : ∃ o o1 txt' o2, calendarOfString exLib exText = .ok o ∧ o.calOps exLib exSession = .ok o1 ∧
    serializeCalendar exLib (.width .chars 75) o1 = .ok txt' ∧ calendarOfString exLib txt' = .ok o2 ∧
    SameCalendar exLib (unquoteCalendar o1) (unquoteCalendar o2) := by
  obtain ⟨o, h1, h2⟩ := exText_accepted
  obtain ⟨o1, txt', o2, h3, h4, h5, h6⟩ := C107_text_partial exLib exLib_utc exLib_whole exLib_bounded exLib_writable exText o h1
    (fun is h => by
      rw [exText_items] at h
      injection h with h
      injection h with h
      injection h with _ h
      exact h ▸ exTextItems_safe) _ h2 exZoneTrip exSession (exSession_lasting h1) (.width .chars 75) (by decide)
  exact ⟨o, o1, txt', o2, h1, h3, h4, h5, h6⟩

/-- `C107_others`, `C107_unset_fails` and `C107_copied` apply to the example text: its event is made all-day in the first case,
the todo, which is all-day, is made not to be in the second, and the event is cloned in the third. -/
example : ((calendarOfString exLib exText).toOption.map fun o =>
    ((o.calOp exLib (.times .events 0 exTimeSteps)).isOk, (o.calOp exLib (.times .todos 0 [.unsetAllDay])).isOk,
      (o.calOp exLib (.copy .events 0)).isOk)) =
    some (true, true, true) := by
  unfold calendarOfString
  rw [exText_items]
  decide +kernel

end Ics
