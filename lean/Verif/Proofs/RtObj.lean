import Verif.Proofs.RtSpan

/-
Writing a component and reading it back.
-/
namespace Ics

variable {σ : Type}

/-! ### Post-processing -/

theorem corePost_ok {L : Lib} {cv : Conv} {a : Core σ}
    (hreq : ∀ s, cv = .value s → s.required = true → 0 < a.count s.attr)
    (hsp : cv = .timespan → L.validate (spanOf a.obj.cls a.span) = .ok () ∧
      a.span.endName?.getD a.obj.cls.spanCls.endName = a.obj.cls.spanCls.endName) :
    ∃ b, corePost L cv a = .ok b := by
  unfold corePost
  suffices h : ∃ st, cv.post L (a.state none) = .ok st by
    obtain ⟨st, h⟩ := h
    exact ⟨_, by rw [h]; rfl⟩
  cases cv with
  | value s =>
    have hcount : (a.state none).count s.attr = a.count s.attr := rfl
    unfold Conv.post
    dsimp only
    rw [hcount, if_neg]
    · exact ⟨_, rfl⟩
    · rw [Bool.and_eq_true, beq_iff_eq]
      rintro ⟨h1, h2⟩
      have := hreq s rfl h1
      omega
  | timespan =>
    obtain ⟨h1, h2⟩ := hsp rfl
    obtain ⟨sp, hspan⟩ : ∃ sp, sp = spanOf a.obj.cls a.span := ⟨_, rfl⟩
    have k1 : L.mkSpan sp = .ok sp := by
      simp only [Env.mkSpan, hspan, h1, bind, Except.bind]
    have k2 : (a.state none).obj.setattr L "timespan".toList (.timespan a.obj.cls.spanCls) (.one (.span sp)) =
        .ok { (a.state none).obj with attrs := dictSet a.obj.attrs "timespan".toList (.one (.span sp)) } := by
      have : L.validateTimespan a.obj.cls.spanCls sp = .ok () := by
        unfold Env.validateTimespan
        rw [hspan, if_pos (by unfold spanOf isInstance; cases a.obj.cls.spanCls <;> rfl)]
        exact h1
      simp only [Obj.setattr, Check.run, this, Except.map]
      rfl
    have k3 : raiseIf (decide (a.span.endName?.getD a.obj.cls.spanCls.endName ≠ a.obj.cls.spanCls.endName)) = .ok () :=
      raiseIf_ok.2 (decide_eq_false fun e => e h2)
    show ∃ st, postSpan L (a.state none) = .ok st
    simp only [postSpan, bind_ok_iff]
    refine ⟨_, sp, ?_, (), k3, _, k2, rfl⟩
    rw [hspan] at k1 ⊢
    exact k1
  | member _ _ => exact ⟨_, rfl⟩
  | alarmAction => exact ⟨_, rfl⟩
  | calendarTimezone => exact ⟨_, rfl⟩

theorem corePostAll_ok {L : Lib} {cvs : List Conv} {a : Core σ}
    (hd : cvs.Pairwise fun x y => ∀ k ∈ x.attrKeys, k ∉ y.attrKeys)
    (hreq : ∀ s, .value s ∈ cvs → s.required = true → 0 < a.count s.attr)
    (hsp : .timespan ∈ cvs → L.validate (spanOf a.obj.cls a.span) = .ok () ∧
      a.span.endName?.getD a.obj.cls.spanCls.endName = a.obj.cls.spanCls.endName) :
    ∃ b, corePostAll L cvs a = .ok b := by
  induction cvs generalizing a with
  | nil => exact ⟨a, rfl⟩
  | cons cv cvs ih =>
    obtain ⟨hd1, hd2⟩ := List.pairwise_cons.1 hd
    obtain ⟨a1, h1⟩ := corePost_ok (L := L) (cv := cv) (a := a) (fun s e => hreq s (e ▸ List.mem_cons_self))
      (fun e => hsp (e ▸ List.mem_cons_self))
    obtain ⟨k1, k2, k3, k4, k5⟩ := corePost_keep h1
    obtain ⟨b, h2⟩ := ih (a := a1) hd2 (fun s hs hr => by
      have := hreq s (List.mem_cons_of_mem _ hs) hr
      unfold Core.count at *
      rw [k5 _ fun h => hd1 _ hs _ h (List.mem_singleton_self _)]
      exact this) (fun ht => by
      have hne : cv ≠ .timespan := by
        rintro rfl
        exact hd1 _ ht "timespan".toList (List.mem_singleton_self _) (List.mem_singleton_self _)
      rw [k3, k4 hne]
      exact hsp (List.mem_cons_of_mem _ ht))
    exact ⟨b, by simp only [corePostAll, h1, bind, Except.bind, h2]⟩

theorem convs_pairwise (c : Cls) : c.convs.Pairwise fun x y => ∀ k ∈ x.attrKeys, k ∉ y.attrKeys := by
  cases c <;> decide +kernel

/-! ### The tables of the specification -/

theorem allAttrs_convs (c : Cls) : ∀ k ∈ allAttrs c, ∃ cv ∈ c.convs, k.toList ∈ cv.attrKeys := by
  cases c <;> decide +kernel

/-- The attribute of a list. -/
def Conv.multiAttr : Conv → Option Str
  | .value s => if s.multi then some s.attr else none
  | _ => none

theorem oneParamKeys_convs (c : Cls) : ∀ k ∈ oneParamKeys c, ∃ cv ∈ c.convs, k.toList ∈ cv.paramKeys ∧ cv.multiAttr = none := by
  cases c <;> decide +kernel

theorem listAttrs_convs (c : Cls) : ∀ k ∈ listAttrs c, ∃ cv ∈ c.convs, cv.multiAttr = some k.toList ∧
    extraKey k.toList = k.toUpper.toList := by
  cases c <;> decide +kernel

theorem Conv.multiAttr_none {cv : Conv} (h : cv.multiAttr = none) : ∀ s, cv = .value s → s.multi = false := by
  rintro s rfl
  unfold Conv.multiAttr at h
  dsimp only at h
  cases hm : s.multi with
  | false => rfl
  | true =>
    rw [hm] at h
    cases h

theorem Conv.multiAttr_some {cv : Conv} {a : Str} (h : cv.multiAttr = some a) :
    ∃ s, cv = .value s ∧ s.multi = true ∧ s.attr = a := by
  unfold Conv.multiAttr at h
  cases cv with
  | value s =>
    dsimp only at h
    split at h
    · rename_i hm
      cases h
      exact ⟨s, rfl, hm, rfl⟩
    · cases h
  | _ => cases h

/-! ### Reading -/

theorem rt_load {L : Lib} {mem : MemberLoad σ} {R : σ → σ → Prop} {o : Obj σ} {items : List Item}
    {zones : List (Str × Nat)} {rd : Reading σ} (hrd : IsReading L mem (L.toWorld.resolve (some zones)) rd)
    (hname : o.extraName = o.cls.icsName) (hextra : items.filter (unhandled o.cls) = o.extra)
    (h : ∀ cv ∈ o.cls.convs, ∃ b, foldConv L rd cv (cv.own items) (.new L o.cls) = .ok b ∧ RtRead L R o cv b) :
    ∃ o' ctx', loadObj L mem o.cls items (some zones) = .ok (o', ctx') ∧ SameObj L R o o' := by
  obtain ⟨a, ha⟩ := coreItems_ok (L := L) (rd := rd) (items := items) (a := .new L o.cls)
    fun cv hcv => (h cv hcv).imp fun _ h => h.1
  have hacls : a.obj.cls = o.cls := coreItems_cls ha
  have agree : ∀ cv ∈ o.cls.convs, ∃ b, RtRead L R o cv b ∧ Agree cv b a := by
    intro cv hcv
    obtain ⟨b, h1, h2⟩ := h cv hcv
    obtain ⟨b', h3, h4⟩ := coreItems_agree ha (cv := cv) hcv
    rw [h1] at h3
    cases h3
    exact ⟨b, h2, h4⟩
  obtain ⟨a', ha'⟩ := corePostAll_ok (L := L) (a := a) (convs_pairwise o.cls)
    (fun s hs hr => by
      obtain ⟨b, h1, h2⟩ := agree _ hs
      have := h1.required s rfl hr
      unfold Core.count at *
      rw [← h2.counts s.attr (List.mem_singleton_self _)]
      exact this)
    (fun ht => by
      obtain ⟨b, h1, h2⟩ := agree _ ht
      obtain ⟨s, k1, k2, k3, k4⟩ := h1.span rfl
      rw [hacls, ← h2.span rfl]
      exact ⟨k3, k4⟩)
  have hload : coreLoad L rd o.cls items = .ok a'.obj := by
    simp only [coreLoad, ha, ha', bind, Except.bind, Except.map]
  have k := loadObj_core hrd o.cls items (ctx := some zones) rfl rfl
  unfold Outcome at k
  rw [hload] at k
  obtain ⟨ctx', k, _⟩ := k
  have hframe := loadObj_frame k
  have hkeep := corePostAll_keep ha'
  refine ⟨a'.obj, ctx', k, hframe.1.symm, hname.trans hframe.2.1.symm, ?_, fun x hx => ?_, fun x hx => ?_,
    fun x hx ps hps => ?_, fun x hx hnone => ?_⟩
  · rw [hframe.2.2]
    exact hextra.symm
  · obtain ⟨cv, hcv, hk⟩ := allAttrs_convs _ _ hx
    obtain ⟨b, h1, h2⟩ := agree cv hcv
    by_cases hts : cv = .timespan
    · subst hts
      obtain ⟨s, k1, k2, k3, k4⟩ := h1.span rfl
      have hxe : x.toList = "timespan".toList := List.mem_singleton.1 hk
      obtain ⟨rest, e, hrest⟩ := span_first hcv
      rw [e] at ha'
      simp only [corePostAll, bind_ok_iff] at ha'
      obtain ⟨a1, p1, p2⟩ := ha'
      have q1 := (corePost_span p1).1
      rw [hacls, ← h2.span rfl] at q1
      have : dictGet? a'.obj.attrs "timespan".toList = _ := ((corePostAll_keep p2).1 _ fun h => absurd h hrest).trans q1
      rw [hxe, k1, get_of_dict this]
      exact .one (.span k2)
    · have := h1.attrs hts _ hk
      have e : a'.obj.get x.toList = b.obj.get x.toList := by
        unfold Obj.get
        rw [hkeep.1 _ (attr_ne_timespan hcv hts hk), h2.attrs _ hk]
      rw [e]
      exact this
  · obtain ⟨cv, hcv, hk, hm⟩ := oneParamKeys_convs _ _ hx
    obtain ⟨b, h1, h2⟩ := agree cv hcv
    rw [h1.params (Conv.multiAttr_none hm) _ hk, hkeep.2.1, h2.params _ hk]
  · obtain ⟨cv, hcv, hk, hm⟩ := listAttrs_convs _ _ hx
    obtain ⟨b, h1, h2⟩ := agree cv hcv
    obtain ⟨s, rfl, m1, m2⟩ := Conv.multiAttr_some hk
    have := h1.listParams s rfl m1 ps (by rw [m2, hm]; exact hps)
    have e2 := h2.params (extraKey s.attr) (List.mem_singleton_self _)
    rw [m2, hm] at this e2
    rw [hkeep.2.1, ← e2]
    exact this
  · obtain ⟨cv, hcv, hk, hm⟩ := listAttrs_convs _ _ hx
    obtain ⟨b, h1, h2⟩ := agree cv hcv
    obtain ⟨s, rfl, m1, m2⟩ := Conv.multiAttr_some hk
    have := h1.newParams s rfl m1 (by rw [m2, hm]; exact hnone)
    have e2 := h2.params (extraKey s.attr) (List.mem_singleton_self _)
    have e3 : a'.obj.get s.attr = b.obj.get s.attr := by
      unfold Obj.get
      rw [hkeep.1 _ (attr_ne_timespan hcv nofun (List.mem_singleton_self _)), h2.attrs _ (List.mem_singleton_self _)]
    rw [← e3, m2, hm] at this
    rw [m2, hm] at e2
    rw [hkeep.2.1, ← e2]
    exact this

/-! ### Writing -/

/-- What a part that was written is read back as. -/
def PartOk (L : Lib) (mem : MemberLoad σ) (R : σ → σ → Prop) (o : Obj σ) (avail : List (Str × Nat)) (cv : Conv)
    (part : List Item) : Prop :=
  (∀ i ∈ part, i.name ∈ cv.names ∧ cv ≠ .calendarTimezone) ∧
    ∀ zones rd, SubDict avail zones → IsReading L mem (L.toWorld.resolve (some zones)) rd →
      ∃ b, foldConv L rd cv part (.new L o.cls) = .ok b ∧ RtRead L R o cv b

theorem rt_convs {L : Lib} {mem : MemberLoad σ} {memd : MemberDump σ} {R : σ → σ → Prop} {zs : List (Str × Nat)}
    {need : Bool} {o : Obj σ} {cvs : List Conv} (hts : .timespan ∉ cvs) (h : ∀ cv ∈ cvs, RT L mem memd R zs need o cv)
    {avail : List (Str × Nat)} {dts : Bool} (hs : SubDict avail zs) (hd : need = true → dts = false) :
    ∃ parts avail', dumpConvs L memd cvs o ⟨some avail, dts⟩ = .ok (parts.flatten, ⟨some avail', dts⟩) ∧
      SubDict avail avail' ∧ SubDict avail' zs ∧ List.Forall₂ (PartOk L mem R o avail') cvs parts := by
  induction cvs generalizing avail with
  | nil => exact ⟨[], avail, rfl, .refl _, hs, .nil⟩
  | cons cv cvs ih =>
    rw [List.mem_cons, not_or] at hts
    obtain ⟨part, avail1, dts1, a1, a2, a3, a4, a5, a6⟩ := h cv List.mem_cons_self avail dts hs
      (fun e => e.elim (fun e => absurd e.symm hts.1) hd)
    obtain rfl := a2 (Ne.symm hts.1)
    obtain ⟨parts, avail2, b1, b2, b3, b4⟩ := ih hts.2 (fun cv hcv => h cv (List.mem_cons_of_mem _ hcv)) a4
    refine ⟨part :: parts, avail2, ?_, a3.trans b2, b3, .cons ⟨a5, fun zones rd hz => a6 zones rd (b2.trans hz)⟩ b4⟩
    simp only [dumpConvs, a1, b1, bind, Except.bind, List.flatten_cons]

theorem rt_allConvs {L : Lib} {mem : MemberLoad σ} {memd : MemberDump σ} {R : σ → σ → Prop} {zs : List (Str × Nat)}
    {need : Bool} {o : Obj σ} (hneed : need = true → .timespan ∉ o.cls.convs)
    (h : ∀ cv ∈ o.cls.convs, RT L mem memd R zs need o cv)
    {avail : List (Str × Nat)} {dts : Bool} (hs : SubDict avail zs)
    (hd : .timespan ∈ o.cls.convs ∨ need = true → dts = false) :
    ∃ parts avail' dts', dumpConvs L memd o.cls.convs o ⟨some avail, dts⟩ = .ok (parts.flatten, ⟨some avail', dts'⟩) ∧
      (.timespan ∉ o.cls.convs → dts' = dts) ∧
      SubDict avail avail' ∧ SubDict avail' zs ∧ List.Forall₂ (PartOk L mem R o avail') o.cls.convs parts := by
  by_cases ht : .timespan ∈ o.cls.convs
  · obtain ⟨rest, e, hrest⟩ := span_first ht
    rw [e] at h ⊢
    have hn : need = false := by
      cases need with
      | false => rfl
      | true => exact absurd ht (hneed rfl)
    obtain ⟨part, avail1, dts1, a1, a2, a3, a4, a5, a6⟩ := h .timespan List.mem_cons_self avail dts hs
      (fun _ => hd (Or.inl ht))
    obtain ⟨parts, avail2, b1, b2, b3, b4⟩ := rt_convs (dts := dts1) hrest (fun cv hcv => h cv (List.mem_cons_of_mem _ hcv)) a4
      (fun e => by rw [hn] at e; cases e)
    refine ⟨part :: parts, avail2, dts1, ?_, fun e => absurd List.mem_cons_self e, a3.trans b2, b3,
      .cons ⟨a5, fun zones rd hz => a6 zones rd (b2.trans hz)⟩ b4⟩
    simp only [dumpConvs, a1, b1, bind, Except.bind, List.flatten_cons]
  · obtain ⟨parts, avail', a1, a2, a3, a4⟩ := rt_convs ht h hs (fun e => hd (Or.inr e))
    exact ⟨parts, avail', dts, a1, fun _ => rfl, a2, a3, a4⟩

/-- The parts are found again among the items. -/
theorem parts_found {L : Lib} {mem : MemberLoad σ} {R : σ → σ → Prop} {o : Obj σ} (hc : o.cls ≠ .customAlarm)
    {avail : List (Str × Nat)} {parts : List (List Item)}
    (hp : List.Forall₂ (PartOk L mem R o avail) o.cls.convs parts) (hextra : ∀ i ∈ o.extra, unhandled o.cls i = true)
    {cv : Conv} (hcv : cv ∈ o.cls.convs) (hz : cv ≠ .calendarTimezone) :
    PartOk L mem R o avail cv (cv.own (parts.flatten ++ o.extra)) := by
  rw [own_append, own_none (a := o.extra) fun i hi => unhandled_name (hextra i hi) hcv hz, List.append_nil]
  have := (parts_own hc (fun _ h => h) (convs_nodup _) (hp.imp fun _ _ h i hi => (h.1 i hi).1) hcv).2 hcv
  exact forall₂_zip hp _ this

theorem parts_extra {L : Lib} {mem : MemberLoad σ} {R : σ → σ → Prop} {o : Obj σ}
    {avail : List (Str × Nat)} {parts : List (List Item)}
    (hp : List.Forall₂ (PartOk L mem R o avail) o.cls.convs parts) (hextra : ∀ i ∈ o.extra, unhandled o.cls i = true) :
    (parts.flatten ++ o.extra).filter (unhandled o.cls) = o.extra := by
  rw [List.filter_append, List.filter_eq_self.2 hextra, List.filter_eq_nil_iff.2, List.nil_append]
  intro i hi
  obtain ⟨part, h1, h2⟩ := List.mem_flatten.1 hi
  have : ∃ cv ∈ o.cls.convs, PartOk L mem R o avail cv part := forall₂_mem hp part h1
  obtain ⟨cv, hcv, h3⟩ := this
  have h4 := h3.1 i h2
  rw [not_unhandled hcv h4.1 fun _ _ => h4.2]
  decide

/-- A component that is not a calendar. -/
theorem rt_obj {L : Lib} {mem : MemberLoad σ} (hmem : MemStable L mem) {memd : MemberDump σ} {R : σ → σ → Prop}
    {zs : List (Str × Nat)} {o : Obj σ} (hc : o.cls ≠ .customAlarm) (hz : .calendarTimezone ∉ o.cls.convs)
    (hname : o.extraName = o.cls.icsName) (hextra : ∀ i ∈ o.extra, unhandled o.cls i = true)
    (h : ∀ cv ∈ o.cls.convs, RT L mem memd R zs false o cv)
    {avail : List (Str × Nat)} {dts : Bool} (hs : SubDict avail zs) (hd : .timespan ∈ o.cls.convs → dts = false) :
    ∃ items avail', dumpObj L memd o ⟨some avail, dts⟩ = .ok (.cont o.extraName items, ⟨some avail', dts⟩) ∧
      SubDict avail avail' ∧ SubDict avail' zs ∧
      (∀ cv ∈ o.cls.convs, PartOk L mem R o avail' cv (cv.own items)) ∧
      ∀ zones, SubDict avail' zones →
        ∃ o' ctx', loadObj L mem o.cls items (some zones) = .ok (o', ctx') ∧ SameObj L R o o' := by
  obtain ⟨parts, avail', dts', a1, a2, a3, a4, a5⟩ := rt_allConvs (need := false) (fun e => nomatch e) h hs
    (fun e => e.elim hd fun e => nomatch e)
  have found : ∀ cv ∈ o.cls.convs, PartOk L mem R o avail' cv (cv.own (parts.flatten ++ o.extra)) := fun cv hcv =>
    parts_found hc a5 hextra hcv (fun e => hz (e ▸ hcv))
  refine ⟨parts.flatten ++ o.extra, avail', ?_, a3, a4, found, fun zones hsub => ?_⟩
  · simp only [dumpObj, a1, bind, Except.bind, postDump]
    split
    · rename_i ht
      rw [hd ht]
    · rename_i ht
      rw [a2 ht]
  · obtain ⟨rd, hrd⟩ := exists_reading hmem (L.toWorld.resolve (some zones))
    exact rt_load hrd hname (parts_extra a5 hextra) fun cv hcv => (found cv hcv).2 zones rd hsub hrd

end Ics
