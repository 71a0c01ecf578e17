import Verif.Spec.Edited
import Verif.Proofs.NeededList
import Verif.Proofs.EqualLoad
import Verif.Props.Accepted

/-
C102: events and todos that are changed after they were read.
-/
namespace Ics

variable {σ : Type}

/-- Changes are about attributes only. -/
theorem change_frame {L : Lib} {o o1 : Obj σ} {ch : Change σ} (h : o.change L ch = .ok o1) :
    o1.cls = o.cls ∧ o1.extraName = o.extraName ∧ o1.extra = o.extra ∧ o1.extraParams = o.extraParams ∧
      ∀ a, a ≠ ch.attr → o1.get a = o.get a := by
  cases ch with
  | assign attr v =>
    simp only [Obj.change] at h
    split at h
    · unfold Obj.setattr at h
      obtain ⟨w, _, e⟩ := map_ok_iff.1 h
      cases e
      refine ⟨rfl, rfl, rfl, rfl, fun a ha => ?_⟩
      have ha : a ≠ attr := ha
      unfold Obj.get
      dsimp only
      rw [dictGet_set_ne _ _ ha]
    · cases h
  | addAttendee v =>
    simp only [Obj.change, Obj.addAttendee] at h
    split at h
    · split at h
      · cases h
        refine ⟨rfl, rfl, rfl, rfl, fun a ha => ?_⟩
        have ha : a ≠ "attendees".toList := ha
        unfold Obj.get
        dsimp only
        rw [dictGet_set_ne _ _ ha]
      · cases h
    · cases h

theorem changes_frame {L : Lib} {chs : List (Change σ)} {o o1 : Obj σ} (h : o.changes L chs = .ok o1) :
    o1.cls = o.cls ∧ o1.extraName = o.extraName ∧ o1.extra = o.extra ∧ o1.extraParams = o.extraParams ∧
      ∀ a, a ∉ chs.map Change.attr → o1.get a = o.get a := by
  induction chs generalizing o with
  | nil => cases h; exact ⟨rfl, rfl, rfl, rfl, fun _ _ => rfl⟩
  | cons ch rest ih =>
    simp only [Obj.changes, bind_ok_iff] at h
    obtain ⟨o2, h1, h2⟩ := h
    obtain ⟨a1, a2, a3, a4, a5⟩ := change_frame h1
    obtain ⟨b1, b2, b3, b4, b5⟩ := ih h2
    refine ⟨b1.trans a1, b2.trans a2, b3.trans a3, b4.trans a4, fun a ha => ?_⟩
    simp only [List.map_cons, List.mem_cons, not_or] at ha
    rw [b5 a ha.2, a5 a ha.1]

/-- Of the single-valued attributes of events and todos, those with times have times only. -/
theorem entry_only {c : Cls} (h : c = .event ∨ c = .todo) : ∀ s, .value s ∈ c.convs → s.multi = false →
    ∀ x ∈ s.convs, x = .datetime ∨ x = .organizer → s.convs = [x] := by
  have : (c.convs.all fun cv => match cv with
      | .value s => s.multi || s.convs.all fun x => !decide (x = .datetime ∨ x = .organizer) || decide (s.convs = [x])
      | _ => true) = true := by
    rcases h with rfl | rfl <;> decide +kernel
  intro s hs hm x hx hd
  have h := List.all_eq_true.1 this _ hs
  dsimp only at h
  rw [hm, Bool.false_or] at h
  have h := List.all_eq_true.1 h x hx
  rw [decide_eq_true hd] at h
  exact of_decide_eq_true h

theorem RepParams.mono {r r' : List String} (hr : ∀ k ∈ r', k ∈ r) : ∀ {e : Option ExtraVal}, RepParams r e → RepParams r' e
  | none, _ => trivial
  | some (.one _), h => ⟨h.1, fun k hk => h.2 k (hr k hk)⟩
  | some (.many _), h => h

theorem rep_changed {L : Lib} {zs : List (Str × Nat)} {M : Str → σ → Prop} {o o1 : Obj σ} (ho : RepObj L zs M o)
    (only : ∀ s, .value s ∈ o.cls.convs → s.multi = false → ∀ x ∈ s.convs, x = .datetime ∨ x = .organizer → s.convs = [x])
    (h1 : o1.cls = o.cls) (h2 : o1.extraName = o.extraName) (h3 : o1.extra = o.extra) (h4 : o1.extraParams = o.extraParams)
    (hch : ∀ cv ∈ o.cls.convs, ∀ a, cv.Of a → o1.get a = o.get a ∨ Lasting L zs M o1 cv) : RepObj L zs M o1 := by
  refine ⟨h1 ▸ ho.cls, by rw [h1, h2]; exact ho.name, by rw [h1, h3]; exact ho.extra, ?_, ?_, ?_, ?_, ?_⟩
  · intro s hs hm
    rw [h1] at hs
    have hold := ho.single s hs hm
    rcases hch _ hs s.attr rfl with e | e
    · unfold RepSingle at hold ⊢
      rw [e, h4]
      exact hold
    · unfold Lasting at e
      dsimp only at e
      rw [hm] at e
      simp only [Bool.false_eq_true, if_false] at e
      unfold RepSingle at hold ⊢
      rw [h4] at e ⊢
      cases hg : o1.get s.attr with
      | none => rw [hg] at e; exact e
      | many l => rw [hg] at e; exact e
      | one v =>
        rw [hg] at e
        obtain ⟨c, e1, e2, e3⟩ := e
        refine ⟨c, e1, e2, e3, ?_⟩
        have hmem := List.mem_of_find?_eq_some e1
        cases hg0 : o.get s.attr with
        | none =>
          rw [hg0] at hold
          obtain ⟨hn, _⟩ := hold
          rw [hn]
          exact ⟨trivial, fun _ => rfl⟩
        | many l => rw [hg0] at hold; exact hold.elim
        | one v0 =>
          rw [hg0] at hold
          obtain ⟨c0, k1, _, _, k4, k5⟩ := hold
          have hmem0 := List.mem_of_find?_eq_some k1
          have same : c = .datetime ∨ c = .organizer → c0 = c := fun hd => by
            rw [only s hs hm c hmem hd] at hmem0
            exact List.mem_singleton.1 hmem0
          refine ⟨?_, fun hd => k5 ((same (.inr hd)).trans hd)⟩
          by_cases hd : c = .datetime
          · rw [same (.inl hd)] at k4
            exact k4
          · rw [if_neg hd]
            refine k4.mono fun k hk => ?_
            rw [List.mem_singleton.1 hk]
            split <;> decide
  · intro s hs hm
    rw [h1] at hs
    rcases hch _ hs s.attr rfl with e | e
    · have hold := ho.multi s hs hm
      unfold RepMulti at hold ⊢
      rw [e, h4]
      exact hold
    · unfold Lasting at e
      dsimp only at e
      rw [if_pos hm] at e
      obtain ⟨e1, l, e2, e3⟩ := e
      refine ⟨l.map fun v => ([], [v]), ?_, ?_, .inl ⟨e1, ?_⟩⟩
      · intro g hg
        obtain ⟨v, hv, rfl⟩ := List.mem_map.1 hg
        exact e3 v hv
      · rw [e2, List.map_map]
        congr 1
        exact (flatten_singletons l).symm
      · intro g hg
        obtain ⟨v, hv, rfl⟩ := List.mem_map.1 hg
        exact ⟨rfl, rfl⟩
  · intro a n hs
    rw [h1] at hs
    obtain ⟨k1, k2⟩ := ho.members a n hs
    refine ⟨h4 ▸ k1, ?_⟩
    rcases hch _ hs a rfl with e | e
    · rw [e]
      exact k2
    · exact e
  · intro hs
    rw [h1] at hs
    rcases hch _ hs _ rfl with e | e
    · obtain ⟨s, hs⟩ := ho.time hs
      refine ⟨s, ?_⟩
      obtain ⟨a1, a2, a3, a4, a5, a6, a7, a8, a9, a10, a11⟩ := hs
      exact ⟨e.trans a1, h1 ▸ a2, a3, a4, a5, a6, a7, h4 ▸ a8, h4 ▸ a9, by rw [h1, h4]; exact a10, h4 ▸ a11⟩
    · exact e
  · intro hs
    rw [h1] at hs
    rw [h4]
    exact ho.action hs

theorem entry_changed {L : Lib} {zs : List (Str × Nat)} {o o1 : EntryObj} (h : RepEntry L zs o) {chs : List (Change Alarm)}
    (hch : o.changes L chs = .ok o1) (hlast : LastingEntry L zs o1 (chs.map Change.attr)) : RepEntry L zs o1 := by
  obtain ⟨hc, ho⟩ := h
  obtain ⟨f1, f2, f3, f4, f5⟩ := changes_frame hch
  refine ⟨f1 ▸ hc, rep_changed ho (entry_only hc) f1 f2 f3 f4 fun cv hcv a ha => ?_⟩
  by_cases hin : a ∈ chs.map Change.attr
  · exact .inr (hlast a hin cv (f1 ▸ hcv) ha)
  · exact .inl (f5 a hin)

/-- C102: an event or todo that was read (as in C65) and then changed, any number of times, is written, and what is
written is read as the same, if each attribute that was changed is at the end one that lasts.

Missing for the full claim: lists for which parameters are known, see `C102_list_fails`. -/
theorem C102_edited_partial (L : Lib) (hU : UtcOk L) (hW : WholeOffsets L) (c : Cls) (hc : c = .event ∨ c = .todo)
    (items : List Item) (zones zs : List (Str × Nat)) (o : EntryObj) (ctx : Ctx)
    (h : loadEntry L c items (some zones) = .ok (o, ctx)) (hl : SafeEntryItems c items) (ho : SafeEntry L zs o)
    (chs : List (Change Alarm)) (o1 : EntryObj) (hch : o.changes L chs = .ok o1)
    (hlast : LastingEntry L zs o1 (chs.map Change.attr)) :
    ∃ items' used, dumpEntry L o1 { ctx := some [] } = .ok (.cont c.icsName items', { ctx := some used }) ∧
      (∀ n z, dictGet? used n = some z → dictGet? zs n = some z) ∧
      ∀ zones', (∀ n z, dictGet? used n = some z → Knows L zones' n z) →
        ∃ o2 ctx', loadEntry L c items' (some zones') = .ok (o2, ctx') ∧ SameEntry L o1 o2 := by
  have hcls : o.cls = c := (loadObj_frame h).1
  have f1 := (changes_frame hch).1
  have hrep : RepEntry L zs o1 := entry_changed (entry_rep hU hW hc h hl ho) hch hlast
  obtain ⟨items', used, k1, k2, k3⟩ := C41_roundtrip_partial L hU zs o1 hrep
  rw [f1, hcls] at k1 k3
  exact ⟨items', used, k1, k2, k3⟩

/-- A list that was read with some values cannot be written with more or fewer values. -/
theorem length_fails {L : Lib} {mem : MemberLoad σ} {memd : MemberDump σ} (hmem : MemStable L mem) {c : Cls}
    {items : List Item} {zones : List (Str × Nat)} {o o1 : Obj σ} {ctx : Ctx}
    (h : loadObj L mem c items (some zones) = .ok (o, ctx)) (h1 : o1.cls = c) (h4 : o1.extraParams = o.extraParams)
    {k : String} (hk : k ∈ listAttrs c) {l l' : List (Val σ)} (hg : o.get k.toList = .many l) (hne : l ≠ [])
    (hg1 : o1.get k.toList = .many l') (hlen : l'.length ≠ l.length) (st : DState) :
    (dumpObj L memd o1 st).isOk = false := by
  obtain ⟨s, hs, hm, e, -⟩ := listAttrs_conv c k hk
  obtain ⟨_, groups, _, _, k1, k2⟩ := load_multi hmem rfl h hs hm
  have hl : groups.flatten.map Prod.fst = l := by
    rw [← e] at hg
    unfold Obj.get at hg
    rw [k1] at hg
    injection hg
  have hne' : groups.flatten ≠ [] := by
    rintro e
    rw [e] at hl
    exact hne hl.symm
  rw [if_neg hne'] at k2
  cases hd : dumpObj L memd o1 st with
  | error e => rfl
  | ok r =>
    exfalso
    obtain ⟨i, st'⟩ := r
    cases i with
    | line cl =>
      simp only [dumpObj, bind_ok_iff] at hd
      obtain ⟨r, _, e⟩ := hd
      cases e
    | cont n is =>
      obtain ⟨part, st2, st3, hd, -⟩ := wrote_obj hd (.value s) (h1 ▸ hs)
      simp only [Conv.dump, hm, if_true] at hd
      unfold dumpMulti at hd
      rw [e, hg1] at hd
      dsimp only at hd
      rw [h4, ← e, k2] at hd
      have hz : zipParams l' (some (.many (groups.flatten.map Prod.snd))) = .error .valueError := by
        unfold zipParams
        dsimp only
        rw [if_neg (by simpa using hne'), if_pos (by
          rw [← hl] at hlen
          simp only [List.length_map] at hlen ⊢
          exact fun e => hlen e.symm)]
      rw [hz] at hd
      cases hd

/-- C102 fails for lists: an event or todo that was read with at least one attachment, attendee or category can never be
written again after their number was changed, whatever else is changed. -/
theorem C102_list_fails (L : Lib) (c : Cls) (items : List Item) (zones : List (Str × Nat)) (o : EntryObj) (ctx : Ctx)
    (h : loadEntry L c items (some zones) = .ok (o, ctx)) (chs : List (Change Alarm)) (o1 : EntryObj)
    (hch : o.changes L chs = .ok o1) (k : String) (hk : k ∈ listAttrs c) (l l' : List (Val Alarm))
    (hg : o.get k.toList = .many l) (hne : l ≠ []) (hg1 : o1.get k.toList = .many l') (hlen : l'.length ≠ l.length)
    (st : DState) : (dumpEntry L o1 st).isOk = false := by
  obtain ⟨f1, _, _, f4, _⟩ := changes_frame hch
  exact length_fails (fun _ items => loadAlarm_stable L items) h (f1.trans (loadObj_frame h).1) f4 hk hg hne hg1 hlen st

/-- C102 fails for `add_attendee`: an event that was read with an attendee cannot be written after another one was
added. -/
theorem C102_attendee_fails (L : Lib) (items : List Item) (zones : List (Str × Nat)) (o : EntryObj) (ctx : Ctx)
    (h : loadEntry L .event items (some zones) = .ok (o, ctx)) (l : List (Val Alarm))
    (hg : o.get "attendees".toList = .many l) (hne : l ≠ []) (email : Email) (extra : Params) :
    ∃ o1, o.changes L [.addAttendee (.person true email extra)] = .ok o1 ∧
      o1.get "attendees".toList = .many (l ++ [.person true email extra]) ∧
      ∀ st, (dumpEntry L o1 st).isOk = false := by
  have hch : o.changes L [.addAttendee (.person true email extra)] =
      .ok { o with attrs := dictSet o.attrs "attendees".toList (.many (l ++ [.person true email extra])) } := by
    simp only [Obj.changes, Obj.change, Obj.addAttendee, hg]
    rfl
  have hg1 : Obj.get { o with attrs := dictSet o.attrs "attendees".toList (.many (l ++ [.person true email extra])) }
      "attendees".toList = .many (l ++ [.person true email extra]) := by
    unfold Obj.get
    rw [dictGet_set]
    rfl
  refine ⟨_, hch, hg1, fun st => ?_⟩
  exact C102_list_fails L .event items zones o ctx h _ _ hch "attendees" (by decide) l _ hg hne hg1 (by simp) st

/-- C102: `add_attendee` takes attendees only, and puts them at the end; other attributes stay as they are. -/
theorem C102_add (L : Lib) (o : EntryObj) (l : List (Val Alarm)) (hg : o.get "attendees".toList = .many l) (v : Val Alarm) :
    (∀ o1, o.change L (.addAttendee v) = .ok o1 ↔
      (∃ email extra, v = .person true email extra) ∧
        o1 = { o with attrs := dictSet o.attrs "attendees".toList (.many (l ++ [v])) }) ∧
    ∀ e, o.change L (.addAttendee v) = .error e ↔ e = .typeError ∧ ∀ email extra, v ≠ .person true email extra := by
  simp only [Obj.change, Obj.addAttendee, hg]
  split
  · rename_i email extra
    refine ⟨fun o1 => ⟨fun h => ?_, fun h => ?_⟩, fun e => ⟨nofun, fun h => absurd rfl (h.2 email extra)⟩⟩
    · cases h
      exact ⟨⟨_, _, rfl⟩, rfl⟩
    · rw [h.2]
  · rename_i hn
    refine ⟨fun o1 => ⟨nofun, fun h => ?_⟩, fun e => ⟨fun h => ?_, fun h => ?_⟩⟩
    · obtain ⟨⟨email, extra, rfl⟩, _⟩ := h
      exact absurd rfl (hn email extra)
    · cases h
      exact ⟨rfl, fun email extra e => hn email extra e⟩
    · rw [h.1]

/-- C102: assigning validates: a status is taken exactly if it is one of three words, in any case, and is stored in upper
case. -/
theorem C102_status (L : Lib) (o : EntryObj) (hc : o.cls = .event ∨ o.cls = .todo) (s : Str) :
    (∀ o1, o.change L (.assign "status".toList (.one (.text s))) = .ok o1 →
      upper s ∈ ["TENTATIVE", "CONFIRMED", "CANCELLED"].map String.toList ∧
        o1.get "status".toList = .one (.text (upper s))) ∧
    ∀ e, o.change L (.assign "status".toList (.one (.text s))) = .error e →
      e = .valueError ∧ upper s ∉ ["TENTATIVE", "CONFIRMED", "CANCELLED"].map String.toList := by
  have h1 : o.cls.attrChecks.find? (fun x => x.1 = "status".toList) = some ("status".toList, .status) := by
    rcases hc with h | h <;> rw [h] <;> decide
  simp only [Obj.change, h1, Obj.setattr, Check.run]
  split
  · rename_i h
    refine ⟨fun o1 e => ⟨h, ?_⟩, nofun⟩
    cases e
    unfold Obj.get
    dsimp only
    rw [dictGet_set]
    rfl
  · rename_i h
    refine ⟨nofun, fun e h' => ?_⟩
    cases h'
    exact ⟨rfl, h⟩

example : ((Obj.change exLib exEventObj (.assign "status".toList (.one (.text "Confirmed".toList)))).isOk,
    (Obj.change exLib exEventObj (.assign "status".toList (.one (.text "maybe".toList)))).isOk,
    (Obj.change exLib exEventObj (.addAttendee (.person true (.str "a".toList) []))).isOk,
    (Obj.change exLib exEventObj (.addAttendee (.person false (.str "a".toList) []))).isOk) = (true, false, true, false) := by
  decide +kernel

/-- The event of the example text, read, with a new summary, a place, a status and an attachment. -/
def exChanges : List (Change Alarm) :=
  [.assign "summary".toList (.one (.text "Party; no cake".toList)), .assign "location".toList (.one (.text "here".toList)),
    .assign "status".toList (.one (.text "confirmed".toList)), .assign "attach".toList (.many [.bytes [1, 2, 255]])]

/-- `C102_edited_partial` applies: the changes succeed, and the event that they give survives. -/
example : ∃ o ctx o1 items' used, loadEntry exLib .event exEventItems (some [("X/Y".toList, 1)]) = .ok (o, ctx) ∧
    o.changes exLib exChanges = .ok o1 ∧ o1.get "status".toList = .one (.text "CONFIRMED".toList) ∧
    dumpEntry exLib o1 { ctx := some [] } = .ok (.cont "VEVENT".toList items', { ctx := some used }) ∧
    ∃ o2 ctx', loadEntry exLib .event items' (some [("X/Y".toList, 1)]) = .ok (o2, ctx') ∧ SameEntry exLib o1 o2 := by
  have key : ((loadEntry exLib .event exEventItems (some [("X/Y".toList, 1)])).toOption.map fun r =>
      (safeObjB exLib [("X/Y".toList, 1)] (safeObjB exLib [("X/Y".toList, 1)] fun _ => true) r.1,
        (dictGet? r.1.extraParams "ATTACH".toList).isNone)) = some (true, true) := by
    decide +kernel
  cases h : loadEntry exLib .event exEventItems (some [("X/Y".toList, 1)]) with
  | error e =>
    rw [h] at key
    cases key
  | ok r =>
    rw [h] at key
    obtain ⟨o, ctx⟩ := r
    have key := Option.some.inj key
    have hsafe := congrArg Prod.fst key
    have hnone : dictGet? o.extraParams "ATTACH".toList = none := Option.isNone_iff_eq_none.1 (congrArg Prod.snd key)
    have hcls : o.cls = .event := (loadObj_frame h).1
    have step : ∀ (p : EntryObj) (a : Str) (v w : AttrVal Alarm) (check : Check), p.cls = .event →
        Cls.event.attrChecks.find? (fun x => x.1 = a) = some (a, check) → check.run exLib v = .ok w →
        p.change exLib (.assign a v) = .ok { p with attrs := dictSet p.attrs a w } := by
      intro p a v w check hp h1 h2
      have h1 : p.cls.attrChecks.find? (fun x => x.1 = a) = some (a, check) := by rw [hp]; exact h1
      simp only [Obj.change, h1, Obj.setattr, h2]
      rfl
    have hch : o.changes exLib exChanges = .ok { o with
        attrs := dictSet (dictSet (dictSet (dictSet o.attrs "summary".toList (.one (.text "Party; no cake".toList)))
          "location".toList (.one (.text "here".toList))) "status".toList (.one (.text "CONFIRMED".toList)))
          "attach".toList (.many [.bytes [1, 2, 255]]) } := by
      simp only [exChanges, Obj.changes]
      rw [step o _ _ _ .any (by exact hcls) (by decide) rfl]
      dsimp only [bind, Except.bind]
      rw [step _ _ _ _ .any (by exact hcls) (by decide) rfl]
      dsimp only [bind, Except.bind]
      rw [step _ _ _ (.one (.text "CONFIRMED".toList)) .status (by exact hcls) (by decide) (by rfl)]
      dsimp only [bind, Except.bind]
      rw [step _ _ _ _ .list (by exact hcls) (by decide) rfl]
    have g4 : ∀ (d : List (Str × AttrVal Alarm)) (a b : String) (v : AttrVal Alarm), a.toList ≠ b.toList →
        (dictGet? (dictSet d b.toList v) a.toList) = dictGet? d a.toList := fun d a b v h => dictGet_set_ne _ _ h
    obtain ⟨o1, ho1⟩ : ∃ o1 : EntryObj, o1 = { o with
        attrs := dictSet (dictSet (dictSet (dictSet o.attrs "summary".toList (.one (.text "Party; no cake".toList)))
          "location".toList (.one (.text "here".toList))) "status".toList (.one (.text "CONFIRMED".toList)))
          "attach".toList (.many [.bytes [1, 2, 255]]) } := ⟨_, rfl⟩
    rw [← ho1] at hch
    have e1 : o1.get "summary".toList = .one (.text "Party; no cake".toList) := by
      rw [ho1]
      unfold Obj.get
      dsimp only
      rw [g4 _ _ _ _ (by decide), g4 _ _ _ _ (by decide), g4 _ _ _ _ (by decide), dictGet_set]
      rfl
    have e2 : o1.get "location".toList = .one (.text "here".toList) := by
      rw [ho1]
      unfold Obj.get
      dsimp only
      rw [g4 _ _ _ _ (by decide), g4 _ _ _ _ (by decide), dictGet_set]
      rfl
    have e3 : o1.get "status".toList = .one (.text "CONFIRMED".toList) := by
      rw [ho1]
      unfold Obj.get
      dsimp only
      rw [g4 _ _ _ _ (by decide), dictGet_set]
      rfl
    have e4 : o1.get "attach".toList = .many [.bytes [1, 2, 255]] := by
      rw [ho1]
      unfold Obj.get
      dsimp only
      rw [dictGet_set]
      rfl
    have e5 : dictGet? o1.extraParams "ATTACH".toList = none := by rw [ho1]; exact hnone
    have hlast : ∀ ch ∈ exChanges, ∀ cv ∈ Cls.event.convs, cv.Of ch.attr → Lasting exLib [("X/Y".toList, 1)]
        (fun _ => RepAlarm exLib [("X/Y".toList, 1)]) o1 cv := by
      have find : ∀ a s, (Cls.event.convs.filter fun cv => (Conv.attrChecks .event cv).any fun x => x.1 = a) = [.value s] →
          ∀ cv ∈ Cls.event.convs, cv.Of a → cv = .value s := by
        intro a s hf cv hcv ha
        have : cv ∈ Cls.event.convs.filter fun cv => (Conv.attrChecks .event cv).any fun x => x.1 = a := by
          rw [List.mem_filter]
          refine ⟨hcv, ?_⟩
          cases cv <;> simp_all [Conv.Of, Conv.attrChecks]
        rw [hf] at this
        exact List.mem_singleton.1 this
      intro ch hm cv hcv ha
      simp only [exChanges, List.mem_cons, List.not_mem_nil, or_false] at hm
      rcases hm with rfl | rfl | rfl | rfl
      · rw [find _ ⟨"summary".toList, "SUMMARY".toList, false, false, [.text], .any⟩ (by decide) cv hcv ha]
        unfold Lasting
        dsimp only
        rw [if_neg (by decide), e1]
        exact ⟨.text, rfl, trivial, rfl⟩
      · rw [find _ ⟨"location".toList, "LOCATION".toList, false, false, [.text], .any⟩ (by decide) cv hcv ha]
        unfold Lasting
        dsimp only
        rw [if_neg (by decide), e2]
        exact ⟨.text, rfl, trivial, rfl⟩
      · rw [find _ ⟨"status".toList, "STATUS".toList, false, false, [.text], .status⟩ (by decide) cv hcv ha]
        unfold Lasting
        dsimp only
        rw [if_neg (by decide), e3]
        exact ⟨.text, rfl, trivial, by rfl⟩
      · rw [find _ ⟨"attach".toList, "ATTACH".toList, true, false, [.uri, .binary], .list⟩ (by decide) cv hcv ha]
        unfold Lasting
        dsimp only
        rw [if_pos rfl]
        refine ⟨e5, _, e4, fun v hv => ?_⟩
        rw [List.mem_singleton.1 hv]
        refine ⟨by simp, by decide, by decide, ⟨.binary, fun v hv => ?_⟩, fun u hu => ?_, fun a u x hu => ?_⟩
        · rw [List.mem_singleton.1 hv]
          exact ⟨rfl, trivial⟩
        · cases List.mem_singleton.1 hu
        · cases List.mem_singleton.1 hu
    obtain ⟨items', used, k1, k2, k3⟩ := C102_edited_partial exLib exLib_utc exLib_whole .event (.inl rfl) exEventItems _ _ o ctx h
      exEventItems_safe (safeObj_of (fun _ h => safeObj_of (fun _ _ => trivial) h) hsafe) exChanges o1 hch
      fun a ha cv hcv hof => by
        obtain ⟨ch, hm, rfl⟩ := List.mem_map.1 ha
        rw [show o1.cls = .event by rw [ho1]; exact hcls] at hcv
        exact hlast ch hm cv hcv hof
    exact ⟨o, ctx, o1, items', used, rfl, hch, e3, k1, k3 _ fun n z hz => .inl (k2 n z hz)⟩

/-- The event has an attendee, so it cannot be written after another one was added; nor without its categories. -/
example : ∃ o ctx o1 o2, loadEntry exLib .event exEventItems (some [("X/Y".toList, 1)]) = .ok (o, ctx) ∧
    o.changes exLib [.addAttendee (.person true (.str "mailto:e@f".toList) [])] = .ok o1 ∧
    (∀ st, (dumpEntry exLib o1 st).isOk = false) ∧
    o.changes exLib [.assign "categories".toList (.many [])] = .ok o2 ∧
    ∀ st, (dumpEntry exLib o2 st).isOk = false := by
  have key : ((loadEntry exLib .event exEventItems (some [("X/Y".toList, 1)])).toOption.map fun r =>
      (match r.1.get "attendees".toList with | .many l => l.length | _ => 0,
        match r.1.get "categories".toList with | .many l => l.length | _ => 0)) = some (1, 2) := by
    decide +kernel
  cases h : loadEntry exLib .event exEventItems (some [("X/Y".toList, 1)]) with
  | error e =>
    rw [h] at key
    cases key
  | ok r =>
    rw [h] at key
    obtain ⟨o, ctx⟩ := r
    have key := Option.some.inj key
    have k1 := congrArg Prod.fst key
    have k2 := congrArg Prod.snd key
    dsimp only at k1 k2
    have hcls : o.cls = .event := (loadObj_frame h).1
    have len : ∀ (v : AttrVal Alarm) (n : Nat), (match v with | .many l => l.length | _ => 0) = n + 1 →
        ∃ l, v = .many l ∧ l ≠ [] := by
      intro v n h
      cases v with
      | many l => exact ⟨l, rfl, by rintro rfl; cases h⟩
      | _ => cases h
    obtain ⟨l, e1, ne1⟩ := len _ _ k1
    obtain ⟨m, e2, ne2⟩ := len _ _ k2
    obtain ⟨o1, h1, _, h2⟩ := C102_attendee_fails exLib exEventItems _ o ctx h l e1 ne1 (.str "mailto:e@f".toList) []
    have hch : o.changes exLib [.assign "categories".toList (.many [])] =
        .ok { o with attrs := dictSet o.attrs "categories".toList (.many []) } := by
      have h1 : o.cls.attrChecks.find? (fun x => x.1 = "categories".toList) = some ("categories".toList, .list) := by
        rw [hcls]
        decide
      simp only [Obj.changes, Obj.change, h1]
      rfl
    refine ⟨o, ctx, o1, _, rfl, h1, h2, hch, fun st => ?_⟩
    refine C102_list_fails exLib .event exEventItems _ o ctx h _ _ hch "categories" (by decide) m [] e2 ne2 ?_ ?_ st
    · unfold Obj.get
      rw [dictGet_set]
      rfl
    · intro e
      exact ne2 (List.length_eq_zero_iff.1 e.symm)

end Ics
