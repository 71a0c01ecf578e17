import Verif.Proofs.RtEntry

/-
Writing calendars and reading them back.
-/
namespace Ics

variable {σ : Type}

/-! ### The zones that are collected while writing -/

/-- Each zone is there once, under its own name. -/
def CtxOk (L : Lib) (ctx : Ctx) : Prop :=
  ∀ used, ctx = some used → UniqueKeys used ∧ ∀ n z, (n, z) ∈ used → n = L.tzid z

theorem serializeDt_ctx {L : Lib} {d : DT} {p p' : Params} {ctx ctx' : Ctx} {t : Str} (hc : CtxOk L ctx)
    (h : serializeDt L.toWorld d p ctx = .ok (t, p', ctx')) : CtxOk L ctx' := by
  unfold serializeDt at h
  split at h
  · cases h
    exact hc
  split at h
  · cases h
    exact hc
  split at h
  · cases h
  · cases h
    exact hc
  split at h
  · cases h
  cases h
  rename_i avail
  intro used e
  obtain ⟨h1, h2⟩ := hc _ rfl
  cases e
  refine ⟨uniqueKeys_setDefault _ _ h1, fun n z hm => ?_⟩
  unfold dictSetDefault at hm
  split at hm
  · exact h2 n z hm
  · rcases mem_dictSet hm with e | hm
    · cases e
      rfl
    · exact h2 n z hm

theorem serialize_ctx {L : Lib} {c : ValConv} {v : Val σ} {p p' : Params} {ctx ctx' : Ctx} {t : Str} (hc : CtxOk L ctx)
    (h : c.serialize L v p ctx = .ok (t, p', ctx')) : CtxOk L ctx' := by
  unfold ValConv.serialize at h
  split at h
  case h_4 => exact serializeDt_ctx hc h
  case h_6 =>
    rename_i n
    cases hi : intSerialize n with
    | error e =>
      rw [hi] at h
      cases h
    | ok s =>
      rw [hi] at h
      cases h
      exact hc
  all_goals
    cases h
    try exact hc

theorem dumpMultiLoop_ctx {L : Lib} {s : AttrSpec} {l : List (Val σ × Params)} {cur : Option Params} {ts : List Str}
    {st st' : DState} {is : List Item} (hc : CtxOk L st.ctx)
    (h : dumpMultiLoop L s l cur ts st = .ok (is, st')) : CtxOk L st'.ctx := by
  induction l generalizing cur ts st st' is with
  | nil =>
    simp only [dumpMultiLoop, bind_ok_iff] at h
    obtain ⟨_, _, h⟩ := h
    cases h
    exact hc
  | cons x l ih =>
    obtain ⟨v, p⟩ := x
    simp only [dumpMultiLoop, bind_ok_iff] at h
    obtain ⟨⟨c, q⟩, _, ⟨t, r, ctx⟩, hs, _, _, h⟩ := h
    have hs := serialize_ctx hc hs
    split at h
    · exact ih (st := { st with ctx := ctx }) hs h
    · simp only [bind_ok_iff] at h
      obtain ⟨⟨js, st2⟩, hl, h⟩ := h
      have := ih (st := { st with ctx := ctx }) hs hl
      cases h
      exact this

theorem dumpSpanValue_ctx {L : Lib} {s : Span} {d : DT} {p p' : Params} {ctx ctx' : Ctx} {t : Str} (hc : CtxOk L ctx)
    (h : dumpSpanValue L s d p ctx = .ok (t, p', ctx')) : CtxOk L ctx' := by
  unfold dumpSpanValue at h
  split at h
  · cases h
    exact hc
  · exact serializeDt_ctx hc h

theorem dumpSpan_ctx {L : Lib} {o : Obj σ} {st st' : DState} {is : List Item} (hc : CtxOk L st.ctx)
    (h : dumpSpan L o st = .ok (is, st')) : CtxOk L st'.ctx := by
  unfold dumpSpan at h
  split at h
  · rename_i s _
    simp only [bind_ok_iff] at h
    obtain ⟨⟨a, st1⟩, h1, ⟨b, st2⟩, h2, h⟩ := h
    cases h
    have hc1 : CtxOk L st1.ctx := by
      unfold dumpSpanBegin at h1
      split at h1
      · cases h1
        exact hc
      · split at h1
        · cases h1
        · simp only [bind_ok_iff] at h1
          obtain ⟨_, _, ⟨t, q, ctx⟩, h3, h1⟩ := h1
          cases h1
          exact dumpSpanValue_ctx hc h3
    unfold dumpSpanEnd at h2
    dsimp only at h2
    split at h2
    · simp only [bind_ok_iff] at h2
      obtain ⟨_, _, h2⟩ := h2
      cases h2
      exact hc1
    · simp only [bind_ok_iff] at h2
      obtain ⟨_, _, ⟨t, q, ctx⟩, h3, h2⟩ := h2
      cases h2
      exact dumpSpanValue_ctx hc1 h3
    · cases h2
      exact hc1
  · cases h

theorem dumpMembers_ctx {L : Lib} {memd : MemberDump σ}
    (hm : ∀ m st i st', CtxOk L st.ctx → memd m st = .ok (i, st') → CtxOk L st'.ctx)
    {l : List (Val σ)} {st st' : DState} {is : List Item} (hc : CtxOk L st.ctx)
    (h : dumpMembers memd l st = .ok (is, st')) : CtxOk L st'.ctx := by
  induction l generalizing st st' is with
  | nil =>
    cases h
    exact hc
  | cons v l ih =>
    unfold dumpMembers at h
    split at h
    · rename_i e
      cases e
    · rename_i m l' e
      cases e
      simp only [bind_ok_iff] at h
      obtain ⟨⟨i, st1⟩, h1, ⟨js, st2⟩, h2, h⟩ := h
      have := ih (hm _ _ _ _ hc h1) h2
      cases h
      exact this
    · cases h

theorem dump_ctx {L : Lib} {memd : MemberDump σ}
    (hm : ∀ m st i st', CtxOk L st.ctx → memd m st = .ok (i, st') → CtxOk L st'.ctx)
    {cv : Conv} {o : Obj σ} {st st' : DState} {is : List Item} (hc : CtxOk L st.ctx)
    (h : cv.dump L memd o st = .ok (is, st')) : CtxOk L st'.ctx := by
  cases cv with
  | value s =>
    unfold Conv.dump at h
    dsimp only at h
    split at h
    · unfold dumpMulti at h
      split at h
      · simp only [bind_ok_iff] at h
        obtain ⟨l, _, h⟩ := h
        exact dumpMultiLoop_ctx hc h
      · cases h
    · unfold dumpSingle at h
      split at h
      · cases h
        exact hc
      · simp only [bind_ok_iff] at h
        obtain ⟨p, _, ⟨c, q⟩, _, ⟨t, r, ctx⟩, h1, h⟩ := h
        cases h
        exact serialize_ctx hc h1
      · cases h
  | member n ics =>
    have h : dumpMember memd n o st = .ok (is, st') := h
    simp only [dumpMember, bind_ok_iff] at h
    obtain ⟨_, _, h⟩ := h
    split at h
    · exact dumpMembers_ctx hm hc h
    · cases h
  | timespan => exact dumpSpan_ctx hc h
  | alarmAction =>
    have h : dumpAction o st = .ok (is, st') := h
    unfold dumpAction at h
    split at h
    · cases h
      exact hc
    · cases h
      exact hc
    · cases h
  | calendarTimezone =>
    cases h
    exact hc

theorem dumpConvs_ctx {L : Lib} {memd : MemberDump σ}
    (hm : ∀ m st i st', CtxOk L st.ctx → memd m st = .ok (i, st') → CtxOk L st'.ctx)
    {cvs : List Conv} {o : Obj σ} {st st' : DState} {is : List Item} (hc : CtxOk L st.ctx)
    (h : dumpConvs L memd cvs o st = .ok (is, st')) : CtxOk L st'.ctx := by
  induction cvs generalizing st st' is with
  | nil =>
    cases h
    exact hc
  | cons cv cvs ih =>
    simp only [dumpConvs, bind_ok_iff] at h
    obtain ⟨⟨x, st1⟩, hx, ⟨y, st2⟩, hy, h⟩ := h
    have := ih (dump_ctx hm hc hx) hy
    cases h
    exact this

theorem dumpObj_ctx {L : Lib} {memd : MemberDump σ}
    (hm : ∀ m st i st', CtxOk L st.ctx → memd m st = .ok (i, st') → CtxOk L st'.ctx) :
    ∀ (o : Obj σ) st i st', CtxOk L st.ctx → dumpObj L memd o st = .ok (i, st') → CtxOk L st'.ctx := by
  intro o st i st' hc h
  simp only [dumpObj, bind_ok_iff] at h
  obtain ⟨⟨is, st1⟩, h1, h⟩ := h
  have := dumpConvs_ctx hm hc h1
  cases h
  unfold postDump
  split
  · exact this
  · exact this

theorem dumpEntry_ctx (L : Lib) : ∀ (o : EntryObj) st i st', CtxOk L st.ctx → dumpEntry L o st = .ok (i, st') →
    CtxOk L st'.ctx :=
  dumpObj_ctx (dumpObj_ctx fun m => nomatch m)

/-! ### Writing the zones and reading them back -/

theorem rt_zones {L : Lib} {used : List (Str × Nat)} (hu : UniqueKeys used) (hn : ∀ n z, (n, z) ∈ used → n = L.tzid z)
    (hz : ∀ n z, (n, z) ∈ used → ∃ is, L.tzDump z = .ok (.cont "VTIMEZONE".toList is) ∧ L.tzLoad is = .ok z) :
    ∃ zs, dumpZones L used = .ok zs ∧
      (∀ i ∈ zs, ∃ n z is, (n, z) ∈ used ∧ L.tzDump z = .ok i ∧ i = .cont "VTIMEZONE".toList is) ∧
      ∀ avail rest, UniqueKeys (avail ++ used) → loadZones L (zs ++ rest) avail = loadZones L rest (avail ++ used) := by
  induction used with
  | nil => exact ⟨[], rfl, fun i hi => (nomatch hi), fun avail rest _ => by rw [List.append_nil]; rfl⟩
  | cons a used ih =>
    obtain ⟨n, z⟩ := a
    obtain ⟨zs, h1, h2, h3⟩ := ih (List.nodup_cons.1 hu).2 (fun n z h => hn n z (List.mem_cons_of_mem _ h))
      (fun n z h => hz n z (List.mem_cons_of_mem _ h))
    obtain ⟨is, k1, k2⟩ := hz n z List.mem_cons_self
    obtain rfl := hn n z List.mem_cons_self
    refine ⟨.cont "VTIMEZONE".toList is :: zs, ?_, fun i hi => ?_, fun avail rest hav => ?_⟩
    · simp only [dumpZones, k1, h1, bind, Except.bind]
    · rcases List.mem_cons.1 hi with rfl | hi
      · exact ⟨_, z, is, List.mem_cons_self, k1, rfl⟩
      · obtain ⟨n, z, is, g1, g2, g3⟩ := h2 i hi
        exact ⟨n, z, is, List.mem_cons_of_mem _ g1, g2, g3⟩
    · rw [List.cons_append, loadZones, if_pos rfl, k2]
      show loadZones L (zs ++ rest) (dictSetDefault avail (L.tzid z) z) = _
      have hnone : dictGet? avail (L.tzid z) = none := by
        rw [dictGet_eq_none]
        intro hm
        unfold UniqueKeys at hav
        rw [List.map_append, List.nodup_append] at hav
        exact hav.2.2 _ hm _ List.mem_cons_self rfl
      have hset : dictSetDefault avail (L.tzid z) z = avail ++ [(L.tzid z, z)] := by
        unfold dictSetDefault
        rw [hnone]
        exact dictSet_new _ _ _ (dictGet_eq_none.1 hnone)
      rw [hset, h3 _ _ (by rw [List.append_assoc]; exact hav), List.append_assoc]
      rfl

theorem loadZones_skip {L : Lib} {a rest : List Item} (h : ∀ n is, .cont n is ∈ a → n ≠ "VTIMEZONE".toList)
    (avail : List (Str × Nat)) : loadZones L (a ++ rest) avail = loadZones L rest avail := by
  induction a with
  | nil => rfl
  | cons i a ih =>
    have ih := ih fun n is hm => h n is (List.mem_cons_of_mem _ hm)
    cases i with
    | line cl => exact ih
    | cont n is =>
      rw [List.cons_append, loadZones, if_neg (h n is List.mem_cons_self)]
      exact ih

/-! ### Calendars -/

theorem foldConv_zones {L : Lib} {mem : MemberLoad σ} {ρ : Str → Option Nat} {rd : Reading σ}
    (hrd : IsReading L mem ρ rd) (hρ : ∃ zones, L.toWorld.resolve (some zones) = ρ) (items : List Item) (c : Core σ) :
    foldConv L rd .calendarTimezone items c = .ok c := by
  obtain ⟨zones, rfl⟩ := hρ
  induction items with
  | nil => rfl
  | cons i is ih =>
    have hr : rd .calendarTimezone i = .ok .unit := reading_ok (ctx' := some zones) hrd rfl (by cases i <;> rfl)
    have : coreConv L rd .calendarTimezone i c = .ok c := by
      simp only [coreConv, preConv, hr, bind, Except.bind]
      cases i <;> rfl
    rw [foldConv, this]
    exact ih

theorem cal_names : ∀ cv ∈ Cls.calendar.convs, cv ≠ .calendarTimezone → "VTIMEZONE".toList ∉ cv.names := by
  decide +kernel

theorem cal_members : ∀ cv ∈ Cls.calendar.convs, ∀ a n, cv = .member a n →
    a = "events".toList ∧ n = "VEVENT".toList ∨ a = "todos".toList ∧ n = "VTODO".toList := by
  intro cv hcv a n e
  subst e
  revert hcv
  simp [Cls.convs, attr1]

theorem rt_calMember {L : Lib} (hU : UtcOk L) {zs : List (Str × Nat)} {a n : Str} (hcv : .member a n ∈ Cls.calendar.convs)
    {m : EntryObj} (hm : RepEntry L zs m ∧ m.cls = if a = "events".toList then .event else .todo) :
    MemRT L (loadCalMember L) (dumpEntry L) (SameEntry L) zs true n m := by
  intro avail dts hs hd
  obtain ⟨items, avail', h1, h2, h3, h4⟩ := rt_entry hU hm.1 hs (hd rfl)
  have key : m.cls.icsName = n ∧ (if n = "VTODO".toList then Cls.todo else .event) = m.cls := by
    rcases cal_members _ hcv a n rfl with ⟨rfl, rfl⟩ | ⟨rfl, rfl⟩
    · rw [hm.2]
      decide
    · rw [hm.2]
      decide
  refine ⟨items, avail', ?_, h2, h3, fun zones hz => ?_⟩
  · rw [h1, key.1]
  · unfold loadCalMember
    rw [key.2]
    exact h4 zones hz

theorem rt_calendar {L : Lib} (hU : UtcOk L) {zs : List (Str × Nat)} {o : CalObj} (ho : RepCalendar L zs o)
    (hz : ∀ n z, dictGet? zs n = some z → ∃ is, L.tzDump z = .ok (.cont "VTIMEZONE".toList is) ∧ L.tzLoad is = .ok z) :
    ∃ items o', dumpCalendar L o = .ok (.cont "VCALENDAR".toList items) ∧ loadCalendar L items = .ok o' ∧
      SameCalendar L o o' ∧ (∀ zis, .cont "VTIMEZONE".toList zis ∈ items → ∃ n z, dictGet? zs n = some z ∧
        L.tzDump z = .ok (.cont "VTIMEZONE".toList zis)) ∧
      ∀ a st b st', dumpConvs L (dumpEntry L) calConvsBefore o { ctx := some [] } = .ok (a, st) →
        dumpConvs L (dumpEntry L) calConvsAfter o st = .ok (b, st') →
        ∀ n z, (n, z) ∈ st'.ctx.getD [] → dictGet? zs n = some z := by
  obtain ⟨hc, ho⟩ := ho
  have hne : o.cls ≠ .customAlarm := ho.cls
  have hrt := rep_rt (need := true) (mem := loadCalMember L) (memd := dumpEntry L) (R := SameEntry L) hU ho
    fun a n hcv m hm => rt_calMember hU (hc ▸ hcv) hm
  have hcv : o.cls.convs = calConvsBefore ++ calConvsAfter := by
    rw [hc]
    exact (List.takeWhile_append_dropWhile).symm
  have hts : .timespan ∉ calConvsBefore ++ calConvsAfter := by
    rw [← hcv, hc]
    decide +kernel
  rw [List.mem_append, not_or] at hts
  obtain ⟨p1, u1, a1, a2, a3, a4⟩ := rt_convs (avail := []) (dts := false) hts.1
    (fun cv h => hrt cv (hcv ▸ List.mem_append_left _ h)) (fun _ _ e => nomatch e) (fun _ => rfl)
  obtain ⟨p2, used, b1, b2, b3, b4⟩ := rt_convs (avail := u1) (dts := false) hts.2
    (fun cv h => hrt cv (hcv ▸ List.mem_append_right _ h)) a3 (fun _ => rfl)
  have hctx : CtxOk L (some used) := by
    have h0 : CtxOk L (some []) := fun u e => by
      cases e
      exact ⟨uniqueKeys_nil, fun _ _ h => nomatch h⟩
    exact dumpConvs_ctx (st := ⟨some u1, false⟩) (dumpEntry_ctx L)
      (dumpConvs_ctx (st := ⟨some [], false⟩) (dumpEntry_ctx L) h0 a1) b1
  obtain ⟨hu, hn⟩ := hctx used rfl
  obtain ⟨zis, z1, z2, z3⟩ := rt_zones hu hn fun n z hm => hz n z (b3 _ _ (dictGet_of_mem hu hm))
  have hparts : List.Forall₂ (PartOk L (loadCalMember L) (SameEntry L) o used) o.cls.convs (p1 ++ p2) := by
    rw [hcv]
    exact List.rel_append (a4.imp fun cv part h => ⟨h.1, fun zones rd hz => h.2 zones rd (b2.trans hz)⟩) b4
  have hvt : ∀ i ∈ zis, i.name = "VTIMEZONE".toList := fun i hi => by
    obtain ⟨_, _, is, _, _, rfl⟩ := z2 i hi
    rfl
  obtain ⟨items, hitems⟩ : ∃ items, items = p1.flatten ++ zis ++ (p2.flatten ++ o.extra) := ⟨_, rfl⟩
  have hown : ∀ cv ∈ o.cls.convs, cv ≠ .calendarTimezone →
      cv.own items = cv.own ((p1 ++ p2).flatten ++ o.extra) := by
    intro cv hm hne
    rw [hitems, own_append, own_append, own_append, own_append, List.flatten_append, own_append,
      own_none (a := zis) fun i hi => by rw [hvt i hi]; exact cal_names cv (hc ▸ hm) hne]
    rw [List.append_nil, List.append_assoc]
  have hnames : ∀ i ∈ (p1 ++ p2).flatten, i.name ≠ "VTIMEZONE".toList := by
    intro i hi e
    obtain ⟨part, h1, h2⟩ := List.mem_flatten.1 hi
    obtain ⟨cv, h3, h4⟩ := forall₂_mem hparts part h1
    have := h4.1 i h2
    exact cal_names cv (hc ▸ h3) this.2 (e ▸ this.1)
  have hextra : ∀ n is, .cont n is ∈ o.extra → n ≠ "VTIMEZONE".toList := by
    intro n is hm e
    have hx := ho.extra _ hm
    rw [hc] at hx
    exact unhandled_cont hx (cv := .calendarTimezone) (by decide +kernel) (e ▸ List.mem_singleton_self _)
  have hload : loadZones L items [] = .ok used := by
    rw [hitems, List.append_assoc, loadZones_skip, z3 [] _ (by rw [List.nil_append]; exact hu), List.nil_append]
    · have := loadZones_skip (L := L) (a := p2.flatten ++ o.extra) (rest := []) (fun n is hm => ?_) used
      · rw [List.append_nil] at this
        exact this
      · rcases List.mem_append.1 hm with hm | hm
        · exact hnames (.cont n is) (by rw [List.flatten_append]; exact List.mem_append_right _ hm)
        · exact hextra n is hm
    · exact fun n is hm => hnames (.cont n is) (by rw [List.flatten_append]; exact List.mem_append_left _ hm)
  obtain ⟨rd, hrd⟩ := exists_reading (loadCalMember_stable L) (L.toWorld.resolve (some used))
  obtain ⟨o', ctx', l1, l2⟩ := rt_load (R := SameEntry L) (o := o) (items := items) hrd ho.name (by
      have := parts_extra hparts ho.extra
      rw [List.flatten_append, List.append_assoc, List.filter_append] at this
      have hzis : zis.filter (unhandled o.cls) = [] := by
        rw [List.filter_eq_nil_iff]
        intro i hi
        rw [not_unhandled (cv := .calendarTimezone) (by rw [hc]; decide +kernel)
          (by rw [hvt i hi]; exact List.mem_singleton_self _)]
        · decide
        · rintro cl rfl
          obtain ⟨_, _, is, _, _, e⟩ := z2 _ hi
          cases e
      rw [hitems, List.append_assoc, List.filter_append, List.filter_append, hzis, List.nil_append]
      exact this)
    (fun cv hm => by
      by_cases ht : cv = .calendarTimezone
      · subst ht
        exact ⟨.new L o.cls, foldConv_zones hrd ⟨used, rfl⟩ _ _, fun _ k hk => (nomatch hk), fun _ k hk => (nomatch hk),
          fun s e => (nomatch e), fun s e => (nomatch e), fun s e => (nomatch e), fun e => nomatch e⟩
      · rw [hown cv hm ht]
        exact (parts_found hne hparts ho.extra hm ht).2 used rd (.refl _) hrd)
  refine ⟨items, o', ?_, ?_, l2, fun zis hm => ?_, fun a st b st' ha hb n z hm => ?_⟩
  · have hname : o.extraName = "VCALENDAR".toList := by
      rw [ho.name, hc]
      rfl
    have b1 : dumpConvs L (dumpEntry L) calConvsAfter o ⟨some u1, false⟩ = _ := b1
    simp only [dumpCalendar, a1, b1, bind, Except.bind, Option.getD_some, z1, hname]
    rw [hitems]
  · rw [hc] at l1
    simp only [loadCalendar, hload, l1, bind, Except.bind]
  · rw [hitems] at hm
    rcases List.mem_append.1 hm with hm | hm
    · rcases List.mem_append.1 hm with hm | hm
      · exact absurd rfl (hnames (.cont "VTIMEZONE".toList zis) (by rw [List.flatten_append]; exact List.mem_append_left _ hm))
      · obtain ⟨n, z, is, g1, g2, _⟩ := z2 _ hm
        exact ⟨n, z, b3 _ _ (dictGet_of_mem hu g1), g2⟩
    · rcases List.mem_append.1 hm with hm | hm
      · exact absurd rfl (hnames (.cont "VTIMEZONE".toList zis) (by rw [List.flatten_append]; exact List.mem_append_right _ hm))
      · exact absurd rfl (hextra _ zis hm)
  · rw [a1] at ha
    cases ha
    have b1 : dumpConvs L (dumpEntry L) calConvsAfter o ⟨some u1, false⟩ = _ := b1
    rw [b1] at hb
    cases hb
    exact b3 _ _ (dictGet_of_mem hu hm)

end Ics
