import Verif.Proofs.Accepts
import Verif.Proofs.Duplicate
import Verif.Proofs.ReadText
import Verif.Spec.ReadParts

/-
Lemmas for C95.
-/
namespace Ics

variable {σ : Type}

theorem pieces_split (s : Str) : Pieces s (splitComma s) := by
  have key : ∀ l : List Str, l ≠ [] → (∀ t ∈ l, ',' ∉ t) → Pieces (joinComma l) l := by
    intro l
    induction l with
    | nil => exact fun h => absurd rfl h
    | cons v l ih =>
      intro _ hl
      cases l with
      | nil => exact .one (hl v List.mem_cons_self)
      | cons w l =>
        rw [joinComma_cons _ _ (by simp)]
        exact .more (hl v List.mem_cons_self) (ih (by simp) fun t ht => hl t (List.mem_cons_of_mem _ ht))
  have h := key (splitComma s) (by obtain ⟨g, gs, h⟩ := splitComma_ne s; rw [h]; simp) (splitComma_no_comma s)
  rwa [joinComma_split] at h

theorem type_unique {params : Params} {k a b : Str} {q q' : Bool} (h : dictGet? params k = some [⟨q, a⟩])
    (h' : dictGet? params k = some [⟨q', b⟩]) : a = b := by
  have e := h.symm.trans h'
  generalize hx : ([⟨q, a⟩] : List PVal) = x at e
  generalize hy : ([⟨q', b⟩] : List PVal) = y at e
  obtain rfl := Option.some.inj e
  rw [← hy] at hx
  cases hx
  rfl

theorem hasType_of {cl : ContentLine} {a : Str} {q : Bool} {ty : String} (h : dictGet? cl.params "VALUE".toList = some [⟨q, a⟩])
    (h' : HasType cl ty) : a = ty.toList := h'.elim fun _ h' => type_unique h h'

theorem hasType_none {cl : ContentLine} {ty : String} (h : ∀ v, dictGet? cl.params "VALUE".toList ≠ some [v]) :
    ¬ HasType cl ty := fun h' => h'.elim fun _ h' => h _ h'

/-- Which converter is used for a line. -/
theorem prepare_iff {convs : List ValConv} {params p : Params} {cv : ValConv} (h : prepareParams convs params = .ok (p, cv)) :
    p = dictErase params "VALUE".toList ∧ cv ∈ convs ∧
      ((∃ q, dictGet? params "VALUE".toList = some [⟨q, cv.icsType⟩]) ∨
        (∀ v, dictGet? params "VALUE".toList ≠ some [v]) ∧ convs.head? = some cv) := by
  unfold prepareParams at h
  dsimp only at h
  split at h
  · rename_i x hx
    rw [map_ok_iff] at h
    obtain ⟨c', h, e⟩ := h
    cases e
    unfold findByType at h
    split at h
    · rename_i c2 hc2
      cases h
      have hm := List.mem_of_find?_eq_some hc2
      have ht := List.find?_some hc2
      simp only [decide_eq_true_eq] at ht
      obtain ⟨q, t⟩ := x
      simp only at ht
      exact ⟨rfl, hm, .inl ⟨q, by rw [hx, ht]⟩⟩
    · cases h
  · cases h
  · rename_i h1 h2
    cases convs with
    | nil => cases h
    | cons c l =>
      cases h
      exact ⟨rfl, List.mem_cons_self, .inr ⟨fun v hv => h1 v hv, rfl⟩⟩

theorem says_duration {L : Lib} {cl : ContentLine} {p p' : Params} {ctx ctx' : Ctx} {v : Val σ}
    (h : ValConv.duration.parse L cl.value p ctx = .ok (v, p', ctx')) : SaysDuration cl (.one v) := by
  simp only [ValConv.parse, map_ok_iff] at h
  obtain ⟨us, h, e⟩ := h
  cases e
  obtain ⟨n, h1, rfl, -⟩ := (durationParse_iff _ _).1 h
  exact ⟨n, h1, rfl⟩

theorem cutAt_says {c : Char} {s a b : Str} (h : cutAt c s = some (a, b)) : s = a ++ c :: b ∧ c ∉ a := by
  induction s generalizing a with
  | nil => cases h
  | cons x s ih =>
    rw [cutAt] at h
    split at h
    · rename_i hx
      cases h
      exact ⟨by rw [hx]; rfl, List.not_mem_nil⟩
    · rename_i hx
      rw [Option.map_eq_some_iff] at h
      obtain ⟨⟨a', b'⟩, h, e⟩ := h
      cases e
      obtain ⟨rfl, h2⟩ := ih h
      refine ⟨rfl, ?_⟩
      rw [List.mem_cons]
      rintro (e | e)
      · exact hx e.symm
      · exact h2 e

theorem says_geo {L : Lib} {cl : ContentLine} {p p' : Params} {ctx ctx' : Ctx} {v : Val σ}
    (h : ValConv.geo.parse L cl.value p ctx = .ok (v, p', ctx')) : SaysGeo L cl (.one v) ∧ ∃ x y, v = .geo x y := by
  simp only [ValConv.parse, map_ok_iff] at h
  obtain ⟨g, h, e⟩ := h
  cases e
  unfold geoParse at h
  split at h
  · cases h
  · rename_i a b hc
    split at h
    · rename_i x y h1 h2
      cases h
      obtain ⟨h3, h4⟩ := cutAt_says hc
      exact ⟨⟨a, b, x, y, h3, h4, h1, h2, rfl⟩, x, y, rfl⟩
    · cases h

/-- A file is read by one of two converters. -/
theorem says_file {L : Lib} {cl : ContentLine} {t : Str} {p p0 p' : Params} {cv : ValConv} {ctx ctx' : Ctx} {v : Val σ}
    (hp : prepareParams [.uri, .binary] cl.params = .ok (p0, cv))
    (h : cv.parse L t p ctx = .ok (v, p', ctx')) : SaysFile L cl t v := by
  obtain ⟨-, hm, ht⟩ := prepare_iff hp
  simp only [List.mem_cons, List.not_mem_nil, or_false] at hm
  rcases hm with rfl | rfl
  · right
    refine ⟨?_, ?_⟩
    · intro hq
      rcases ht with ⟨q', ht⟩ | ⟨ht, -⟩
      · have e := hasType_of ht hq
        exact absurd e (by decide)
      · exact hasType_none ht hq
    · simp only [ValConv.parse, map_ok_iff] at h
      obtain ⟨u, h, e⟩ := h
      cases e
      exact ⟨u, h, rfl⟩
  · left
    refine ⟨?_, ?_⟩
    · rcases ht with ⟨q', ht⟩ | ⟨-, ht⟩
      · exact ⟨q', ht⟩
      · cases ht
    · simp only [ValConv.parse, map_ok_iff] at h
      obtain ⟨b, h, e⟩ := h
      cases e
      exact ⟨b, h, rfl⟩

theorem parse_files {L : Lib} {cl : ContentLine} {p0 : Params} {cv : ValConv}
    (hp : prepareParams [.uri, .binary] cl.params = .ok (p0, cv)) {l : List Str} {p : Params} {ctx ctx' : Ctx}
    {vals : List (Val σ × Params)} (h : parseValues L cv l p ctx = .ok (vals, ctx')) :
    List.Forall₂ (SaysFile L cl) l (vals.map Prod.fst) := by
  induction l generalizing p ctx ctx' vals with
  | nil => cases h; exact .nil
  | cons v l ih =>
    simp only [parseValues, bind_ok_iff] at h
    obtain ⟨⟨x, p1, ctx1⟩, h1, ⟨rest, ctx2⟩, h2, e⟩ := h
    cases e
    exact .cons (says_file hp h1) (ih h2)

theorem parse_more_attendees {L : Lib} {l : List Str} {ctx ctx' : Ctx} {vals : List (Val σ × Params)}
    (h : parseValues L .attendee l (setMerge [] true) ctx = .ok (vals, ctx')) :
    ∃ us, List.Forall₂ (fun t u => urlparse L.urlChecks t = .ok u) l us ∧
      vals.map Prod.fst = us.map fun u => .person true (.url u) [("__merge_next".toList, [⟨false, "TRUE".toList⟩])] := by
  induction l generalizing ctx ctx' vals with
  | nil => cases h; exact ⟨[], .nil, rfl⟩
  | cons v l ih =>
    simp only [parseValues, bind_ok_iff] at h
    obtain ⟨⟨x, p1, ctx1⟩, h1, ⟨rest, ctx2⟩, h2, e⟩ := h
    cases e
    simp only [ValConv.parse, map_ok_iff] at h1
    obtain ⟨u, h1, e⟩ := h1
    cases e
    obtain ⟨us, h3, h4⟩ := ih h2
    exact ⟨u :: us, .cons h1 h3, by rw [List.map_cons, h4]; rfl⟩

theorem only_type {c : ValConv} {params p : Params} {cv : ValConv} (h : prepareParams [c] params = .ok (p, cv)) (cl : ContentLine)
    (hp : cl.params = params) {ty : String} (ht : c.icsType = ty.toList) : OnlyType cl ty := by
  obtain ⟨-, -, h⟩ := prepare_single h
  intro v hv
  rw [hp] at hv
  rw [h v hv, ht]

theorem says_attendees {L : Lib} {cl : ContentLine} {p : Params} {cv : ValConv} {ctx ctx' : Ctx} {vals : List (Val σ × Params)}
    (hp : prepareParams [.attendee] cl.params = .ok (p, cv))
    (h : parseValues L cv (cv.split cl.value).items p ctx = .ok (vals, ctx')) : SaysAttendees L cl (vals.map Prod.fst) := by
  refine ⟨only_type hp cl rfl rfl, ?_⟩
  obtain ⟨rfl, rfl, -⟩ := prepare_single hp
  have hs : (ValConv.attendee.split cl.value).items = splitComma cl.value := rfl
  rw [hs] at h
  have hpc := pieces_split cl.value
  obtain ⟨g, gs, hg⟩ := splitComma_ne cl.value
  rw [hg] at h hpc
  simp only [parseValues, bind_ok_iff] at h
  obtain ⟨⟨x, p1, ctx1⟩, h1, ⟨rest, ctx2⟩, h2, e⟩ := h
  cases e
  simp only [ValConv.parse, map_ok_iff] at h1
  obtain ⟨u, h1, e⟩ := h1
  cases e
  obtain ⟨us, h3, h4⟩ := parse_more_attendees h2
  exact ⟨_, u, us, hpc, .cons h1 h3, by rw [List.map_cons, h4]⟩

/-- The values of a multi-valued attribute of a component that was read. -/
theorem load_all {L : Lib} {mem : MemberLoad σ} (hmem : MemStable L mem) {c : Cls} {is : List Item}
    {zones : List (Str × Nat)} {o : Obj σ} {ctx : Ctx}
    (h : loadObj L mem c is (some zones) = .ok (o, ctx)) {s : AttrSpec} (hs : .value s ∈ c.convs) (hm : s.multi = true)
    {name : String} (hn : s.ics = name.toList) {P : ContentLine → List (Val σ) → Prop}
    (hP : ∀ cl p cv (vals : List (Val σ × Params)) ctx', prepareParams s.convs cl.params = .ok (p, cv) →
      parseValues L cv (cv.split cl.value).items p (some zones) = .ok (vals, ctx') → P cl (vals.map Prod.fst)) :
    GivenAll is name P (o.get s.attr) := by
  obtain ⟨cls, groups, h1, h2, h3, -⟩ := load_multi hmem rfl h hs hm
  refine ⟨cls, groups.map (·.map Prod.fst), ?_, ?_, ?_⟩
  · rw [← h1]
    unfold Conv.own
    congr 1
    funext i
    show _ = decide (i.name ∈ [s.ics])
    rw [hn]
    simp only [List.mem_singleton]
  · rw [List.forall₂_map_right_iff]
    refine h2.imp ?_
    rintro cl g ⟨vals, ⟨p, cv, ctx', k1, k2, -⟩, rfl⟩
    have := hP cl p cv vals ctx' k1 k2
    rwa [← markLast_fst] at this
  · rw [get_of_dict h3, List.map_flatten]

theorem files_all {L : Lib} {mem : MemberLoad σ} (hmem : MemStable L mem) {c : Cls} {is : List Item}
    {zones : List (Str × Nat)} {o : Obj σ} {ctx : Ctx} (h : loadObj L mem c is (some zones) = .ok (o, ctx)) {k : Check}
    (hs : attrN "attach" "ATTACH" [.uri, .binary] k ∈ c.convs) : GivenAll is "ATTACH" (SaysFiles L) (o.get "attach".toList) :=
  load_all (s := ⟨"attach".toList, "ATTACH".toList, true, false, [.uri, .binary], k⟩) hmem h hs rfl rfl
    fun cl p cv vals ctx' h1 h2 => by
      refine ⟨splitComma cl.value, pieces_split _, ?_⟩
      have hsp : (cv.split cl.value).items = splitComma cl.value := by
        obtain ⟨-, hm, -⟩ := prepare_iff h1
        simp only [List.mem_cons, List.not_mem_nil, or_false] at hm
        rcases hm with rfl | rfl <;> rfl
      rw [hsp] at h2
      exact parse_files h1 h2

theorem attendees_all {L : Lib} {mem : MemberLoad σ} (hmem : MemStable L mem) {c : Cls} {is : List Item}
    {zones : List (Str × Nat)} {o : Obj σ} {ctx : Ctx} (h : loadObj L mem c is (some zones) = .ok (o, ctx)) {k : Check}
    (hs : attrN "attendees" "ATTENDEE" [.attendee] k ∈ c.convs) :
    GivenAll is "ATTENDEE" (SaysAttendees L) (o.get "attendees".toList) :=
  load_all (s := ⟨"attendees".toList, "ATTENDEE".toList, true, false, [.attendee], k⟩) hmem h hs rfl rfl
    fun _ _ _ _ _ h1 h2 => says_attendees h1 h2

theorem text_given {L : Lib} {mem : MemberLoad σ} (hmem : MemStable L mem) {c : Cls} {is : List Item}
    {zones : List (Str × Nat)} {o : Obj σ} {ctx : Ctx} (h : loadObj L mem c is (some zones) = .ok (o, ctx)) {a n : String}
    {r : Bool} {k : Check} (hk : k = .any ∨ k = .str)
    (hs : .value ⟨a.toList, n.toList, false, r, [.text], k⟩ ∈ c.convs) :
    Given is n SaysText (defaultAttr L a.toList false) (o.get a.toList) :=
  load_given hmem h hs rfl rfl fun cl p cv v p' ctx' w h1 h2 h3 => by
    obtain ⟨rfl, -⟩ := prepare_single h1
    obtain ⟨t, h4, rfl⟩ := says_text h2
    rcases hk with rfl | rfl <;> (cases h3; exact ⟨t, h4, rfl⟩)

theorem action_of (v : Str) : ActionOf v (alarmCls v) := by
  unfold ActionOf alarmCls
  split
  · rename_i h; rw [h]; exact .inl (by simp)
  split
  · rename_i h; rw [h]; exact .inl (by simp)
  split
  · rename_i h; rw [h]; exact .inl (by simp)
  split
  · rename_i h; rw [h]; exact .inl (by simp)
  · rename_i h1 h2 h3 h4
    exact .inr ⟨by simp only [List.mem_cons, List.not_mem_nil, or_false]; tauto, rfl⟩

theorem noMembers_stable (L : Lib) : MemStable L (fun _ _ _ => .error .notImplementedError : MemberLoad Empty) :=
  fun _ _ => Stable.error _ _

theorem alarm_said {L : Lib} {cal is : List Item} {zones : List (Str × Nat)} (hz : loadZones L cal [] = .ok zones)
    {a : Alarm} {ctx : Ctx} (h : loadAlarm L is (some zones) = .ok (a, ctx)) : AlarmSaid L (TzidMeans L cal) is a := by
  unfold loadAlarm at h
  rw [bind_ok_iff] at h
  obtain ⟨i, hi, h⟩ := h
  cases i with
  | cont n is => cases h
  | line cl =>
    dsimp only at h
    have hf : (is.filter fun i => i.name = "ACTION".toList) = [.line cl] := by
      unfold oneItem at hi
      split at hi
      · rename_i j hj
        cases hi
        exact hj
      · cases hi
    have hc : a.cls = alarmCls cl.value := (loadObj_frame h).1
    have hm := noMembers_stable L
    have base : ∀ cv ∈ alarmConvs, cv ∈ (alarmCls cl.value).convs := by
      intro cv hcv
      have : ∀ c : Cls, (∃ v, c = alarmCls v) → cv ∈ c.convs := by
        rintro c ⟨v, rfl⟩
        unfold alarmCls
        split
        · exact List.mem_append_left _ hcv
        split
        · exact List.mem_append_left _ hcv
        split
        · exact hcv
        split
        · exact List.mem_append_left _ hcv
        · exact List.mem_append_left _ hcv
      exact this _ ⟨_, rfl⟩
    have ha := action_of cl.value
    rw [← hc] at h base ha
    refine ⟨⟨cl, hf, ha⟩, ?_, ?_, ?_, ?_, ?_, ?_, ?_, ?_, ?_⟩
    · refine load_given (s := ⟨"trigger".toList, "TRIGGER".toList, false, false, [.duration, .datetime], .trigger⟩) hm h
        (base _ (by decide)) rfl rfl fun cl p cv v p' ctx' w h1 h2 h3 => ?_
      obtain ⟨rfl, hcv, ht⟩ := prepare_iff h1
      simp only [List.mem_cons, List.not_mem_nil, or_false] at hcv
      rcases hcv with rfl | rfl
      · right
        obtain ⟨n, h4, h5⟩ := says_duration h2
        cases h5
        cases h3
        refine ⟨?_, n, h4, rfl⟩
        intro hq
        rcases ht with ⟨q', ht⟩ | ⟨ht, -⟩
        · have e := hasType_of ht hq
          exact absurd e (by decide)
        · exact hasType_none ht hq
      · left
        rcases ht with ⟨q', ht⟩ | ⟨-, ht⟩
        · have hd : ¬ IsDate cl := by
            rintro ⟨q, hq⟩
            exact absurd (type_unique (a := ValConv.datetime.icsType) ht hq) (by decide)
          obtain ⟨d, h4, rfl⟩ := says_datetime hd h2
          cases h3
          exact ⟨⟨q', ht⟩, d, h4.map (zonesOf_means hz), rfl⟩
        · cases ht
    · refine load_given (s := ⟨"repeat".toList, "REPEAT".toList, false, false, [.integer], .any⟩) hm h
        (base _ (by decide)) rfl rfl fun cl p cv v p' ctx' w h1 h2 h3 => ?_
      obtain ⟨rfl, -⟩ := prepare_single h1
      simp only [ValConv.parse, map_ok_iff] at h2
      obtain ⟨n, h2, e⟩ := h2
      cases e
      cases h3
      exact ⟨n, int_says h2, rfl⟩
    · refine load_given (s := ⟨"duration".toList, "DURATION".toList, false, false, [.duration], .timedelta⟩) hm h
        (base _ (by decide)) rfl rfl fun cl p cv v p' ctx' w h1 h2 h3 => ?_
      obtain ⟨rfl, -⟩ := prepare_single h1
      obtain ⟨n, h4, h5⟩ := says_duration h2
      cases h5
      cases h3
      exact ⟨n, h4, rfl⟩
    · intro hk
      rw [hk] at h
      exact text_given (a := "_action") (n := "ACTION") (r := false) hm h (.inl rfl) (by decide)
    · intro hk
      rw [hk] at h
      refine load_given (s := ⟨"attach".toList, "ATTACH".toList, false, false, [.uri, .binary], .any⟩) hm h
        (by decide) rfl rfl fun cl p cv v p' ctx' w h1 h2 h3 => ?_
      cases h3
      exact ⟨v, says_file h1 h2, rfl⟩
    · rintro (hk | hk) <;> rw [hk] at h
      · exact text_given (a := "description") (n := "DESCRIPTION") (r := false) hm h (.inl rfl) (by decide)
      · exact text_given (a := "description") (n := "DESCRIPTION") (r := false) hm h (.inl rfl) (by decide)
    · intro hk
      rw [hk] at h
      exact text_given (a := "summary") (n := "SUMMARY") (r := false) hm h (.inl rfl) (by decide)
    · intro hk
      rw [hk] at h
      exact attendees_all (k := .any) hm h (by decide)
    · intro hk
      rw [hk] at h
      exact files_all (k := .any) hm h (by decide)

theorem entry_parts {L : Lib} {cal is : List Item} {zones : List (Str × Nat)} (hz : loadZones L cal [] = .ok zones)
    {c : Cls} (hc : c = .event ∨ c = .todo) {o : EntryObj} {ctx : Ctx} (h : loadEntry L c is (some zones) = .ok (o, ctx)) :
    PartsSaid L (TzidMeans L cal) is o := by
  have hmem : ∀ cv ∈ entryConvs, cv ∈ c.convs := by
    rcases hc with rfl | rfl <;> exact fun s hs => List.mem_append_left _ hs
  refine ⟨files_all (k := .list) (fun _ items => loadAlarm_stable L items) h (hmem _ (by decide)), ?_⟩
  obtain ⟨ms, h1, h2⟩ := load_member (fun _ items => loadAlarm_stable L items) rfl h
    (a := "alarms".toList) (n := "VALARM".toList) (hmem _ (by decide))
  refine ⟨ms, h1, h2.imp ?_⟩
  rintro i m ⟨is, ctx2, rfl, hm⟩
  exact ⟨is, rfl, alarm_said hz hm⟩

theorem event_people {L : Lib} {is : List Item} {zones : List (Str × Nat)} {o : EntryObj} {ctx : Ctx}
    (h : loadEntry L .event is (some zones) = .ok (o, ctx)) : PeopleSaid L is o := by
  refine ⟨?_, ?_, attendees_all (k := .list) (fun _ items => loadAlarm_stable L items) h (by decide)⟩
  · refine load_given (s := ⟨"organizer".toList, "ORGANIZER".toList, false, false, [.organizer], .organizerOpt⟩)
      (fun _ items => loadAlarm_stable L items) h (by decide) rfl rfl fun cl p cv v p' ctx' w h1 h2 h3 => ?_
    have ht := only_type h1 cl rfl (ty := "ORGANIZER") rfl
    obtain ⟨rfl, rfl, -⟩ := prepare_single h1
    simp only [ValConv.parse, map_ok_iff] at h2
    obtain ⟨u, h2, e⟩ := h2
    cases e
    cases h3
    exact ⟨ht, u, h2, rfl⟩
  · refine load_given (s := ⟨"geo".toList, "GEO".toList, false, false, [.geo], .geo⟩)
      (fun _ items => loadAlarm_stable L items) h (by decide) rfl rfl fun cl p cv v p' ctx' w h1 h2 h3 => ?_
    obtain ⟨rfl, -⟩ := prepare_single h1
    obtain ⟨h4, x, y, rfl⟩ := says_geo h2
    cases h3
    exact h4

theorem calendar_said {L : Lib} {items : List Item} {zones : List (Str × Nat)} {o : CalObj} {ctx : Ctx}
    (h : loadObj L (loadCalMember L) .calendar items (some zones) = .ok (o, ctx)) : CalendarSaid items o := by
  have hm := loadCalMember_stable L
  have need : ∀ a n : String, .value ⟨a.toList, n.toList, false, true, [.text], .str⟩ ∈ Cls.calendar.convs →
      ∃ cl, .line cl ∈ items ∧ cl.name = n.toList ∧ SaysText cl (o.get a.toList) := by
    intro a n hs
    cases text_given (a := a) (n := n) (r := true) hm h (.inr rfl) hs with
    | missing h1 _ =>
      obtain ⟨e, h2, -⟩ := load_required hm (ctx := some zones) rfl rfl hs (by decide) h1
      rw [h] at h2
      cases h2
    | @line before after cl h1 h2 _ h4 =>
      exact ⟨cl, by rw [h1]; simp, h2, h4⟩
  exact ⟨need "version" "VERSION" (by decide), need "prodid" "PRODID" (by decide),
    text_given (a := "scale") (n := "SCALE") (r := false) hm h (.inl rfl) (by decide),
    text_given (a := "method") (n := "METHOD") (r := false) hm h (.inl rfl) (by decide)⟩

end Ics
