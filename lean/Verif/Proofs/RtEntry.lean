import Verif.Proofs.RtObj

/-
Writing alarms, events and todos and reading them back.
-/
namespace Ics

variable {σ : Type}

def Conv.specs : Conv → List AttrSpec
  | .value s => [s]
  | _ => []

theorem required_attrs (c : Cls) : ∀ cv ∈ c.convs, ∀ s ∈ cv.specs,
    (s.required = true → s.multi = false ∧ s.attr ∈ ["uid", "dtstamp", "version", "prodid"].map String.toList) := by
  cases c <;> decide +kernel

theorem rep_rt {L : Lib} (hU : UtcOk L) {mem : MemberLoad σ} {memd : MemberDump σ} {R : σ → σ → Prop}
    {zs : List (Str × Nat)} {need : Bool} {M : Str → σ → Prop} {o : Obj σ} (ho : RepObj L zs M o)
    (hM : ∀ a n, .member a n ∈ o.cls.convs → ∀ m, M a m → MemRT L mem memd R zs need n m) :
    ∀ cv ∈ o.cls.convs, RT L mem memd R zs need o cv := by
  intro cv hcv
  cases cv with
  | value s =>
    have hreq := required_attrs _ _ hcv s (List.mem_singleton_self _)
    cases hm : s.multi with
    | false =>
      have hs := ho.single s hcv hm
      refine rt_single hU hcv hm hs fun hr e => ?_
      unfold RepSingle at hs
      rw [e] at hs
      exact hs.2 (hreq hr).2
    | true =>
      refine rt_multi hcv hm ?_ (ho.multi s hcv hm)
      cases hr : s.required with
      | false => rfl
      | true =>
        have := (hreq hr).1
        rw [hm] at this
        cases this
  | member a n =>
    obtain ⟨h1, ms, h2, h3⟩ := ho.members a n hcv
    exact rt_member hcv h1 h2 fun m hm => hM a n hcv m (h3 m hm)
  | timespan =>
    obtain ⟨s, hs⟩ := ho.time hcv
    exact rt_span hU hcv hs
  | alarmAction => exact rt_action hcv ho.cls (ho.action hcv)
  | calendarTimezone =>
    intro avail dts hs hd
    exact ⟨[], avail, dts, rfl, fun _ => rfl, .refl _, hs, fun i hi => (nomatch hi), fun zones rd hz hrd =>
      ⟨.new L o.cls, rfl, fun _ k hk => (nomatch hk), fun _ k hk => (nomatch hk), fun s e => (nomatch e),
        fun s e => (nomatch e), fun s e => (nomatch e), fun e => nomatch e⟩⟩

/-! ### Alarms -/

theorem alarm_convs {c : Cls} (h : c ∈ [Cls.audioAlarm, .displayAlarm, .emailAlarm, .noneAlarm]) :
    .alarmAction ∈ c.convs ∧ .timespan ∉ c.convs ∧ .calendarTimezone ∉ c.convs ∧ c.icsName = "VALARM".toList ∧
      ∀ cv ∈ c.convs, ∀ a n, cv ≠ .member a n := by
  simp only [List.mem_cons, List.not_mem_nil, or_false] at h
  rcases h with rfl | rfl | rfl | rfl <;> refine ⟨by decide, by decide, by decide, by decide, ?_⟩ <;>
    intro cv hcv a n e <;> subst e <;> revert hcv <;> simp [Cls.convs, alarmConvs, attr1, attrN]

/-- The action of a written alarm. -/
theorem own_action {o : Obj σ} {st st' : DState} {part : List Item} (ha : .alarmAction ∈ o.cls.convs)
    (hc : o.cls ≠ .customAlarm) (h : dumpAction o st = .ok (part, st')) :
    ∃ p act, part = [.line (mkContentLine "ACTION".toList p act)] ∧ alarmCls act = o.cls := by
  obtain ⟨act, h1, h2⟩ := action_cls ha hc
  unfold dumpAction at h
  rw [h1] at h
  split at h
  · rename_i a _ e _
    cases e
    cases h
    exact ⟨_, _, rfl, h2⟩
  · rename_i a _ p e _
    cases e
    cases h
    exact ⟨_, _, rfl, h2⟩
  · cases h

theorem rt_alarm {L : Lib} (hU : UtcOk L) {zs : List (Str × Nat)} {need : Bool} {m : Alarm} (hm : RepAlarm L zs m) :
    MemRT L (fun _ items ctx => loadAlarm L items ctx) (dumpAlarm L) (SameAlarm L) zs need "VALARM".toList m := by
  intro avail dts hs _
  obtain ⟨hc, ho⟩ := hm
  obtain ⟨c1, c2, c3, c4, c5⟩ := alarm_convs hc
  have hmem : MemStable L (fun (_ : Str) (_ : List Item) (_ : Ctx) => (.error .notImplementedError : Except PyErr (Empty × Ctx))) :=
    fun _ _ => Stable.error _ _
  obtain ⟨items, avail', a1, a2, a3, a4, a5⟩ := rt_obj hmem (memd := fun m _ => nomatch m) (R := fun _ _ => False)
    ho.cls c3 ho.name ho.extra (rep_rt hU ho fun a n hcv => absurd rfl (c5 _ hcv a n)) hs (dts := dts)
    (fun e => absurd e c2)
  refine ⟨items, avail', ?_, a2, a3, fun zones hz => ?_⟩
  · rw [← c4, ← ho.name]
    exact a1
  · obtain ⟨o', ctx', l1, l2⟩ := a5 zones hz
    refine ⟨o', ctx', ?_, l2⟩
    obtain ⟨known, e1, e2, e3⟩ := dumpObj_parts (nameOf := fun m => nomatch m) (mem := fun (m : Empty) _ => nomatch m)
      (fun m => nomatch m) (fun a n hcv => absurd rfl (c5 _ hcv a n)) a1
    obtain ⟨st1, st2, e4⟩ := e3 ho.cls _ c1
    obtain ⟨p, act, e5, e6⟩ := own_action c1 ho.cls e4
    have e1 : items = known ++ m.extra := by
      injection e1
    have hone : oneItem items "ACTION".toList = .ok (.line (mkContentLine "ACTION".toList p act)) := by
      have hown : Conv.own .alarmAction items = [.line (mkContentLine "ACTION".toList p act)] := by
        rw [e1, own_append, e5, own_none fun i hi => unhandled_name (ho.extra i hi) c1 (fun e => nomatch e)]
        rfl
      have : items.filter (fun i => i.name = "ACTION".toList) = [.line (mkContentLine "ACTION".toList p act)] := by
        rw [← hown]
        unfold Conv.own
        congr 1
        funext i
        exact decide_eq_decide.2 List.mem_singleton.symm
      unfold oneItem
      rw [this]
    show loadAlarm L items (some zones) = _
    simp only [loadAlarm, hone, bind, Except.bind]
    show loadObj L _ (alarmCls act) items (some zones) = _
    rw [e6]
    exact l1

/-! ### Events and todos -/

theorem entry_convs {c : Cls} (h : c = .event ∨ c = .todo) :
    .calendarTimezone ∉ c.convs ∧ c ≠ .customAlarm ∧
      ∀ cv ∈ c.convs, ∀ a n, cv = .member a n → a = "alarms".toList ∧ n = "VALARM".toList := by
  rcases h with rfl | rfl <;> refine ⟨by decide, by decide, ?_⟩ <;> intro cv hcv a n e <;> subst e <;> revert hcv <;>
    simp [Cls.convs, entryConvs, attr1, attrN]

theorem rt_entry {L : Lib} (hU : UtcOk L) {zs : List (Str × Nat)} {o : EntryObj} (ho : RepEntry L zs o)
    {avail : List (Str × Nat)} {dts : Bool} (hs : SubDict avail zs) (hd : dts = false) :
    ∃ items avail', dumpEntry L o ⟨some avail, dts⟩ = .ok (.cont o.cls.icsName items, ⟨some avail', dts⟩) ∧
      SubDict avail avail' ∧ SubDict avail' zs ∧ ∀ zones, SubDict avail' zones →
        ∃ o' ctx', loadEntry L o.cls items (some zones) = .ok (o', ctx') ∧ SameEntry L o o' := by
  obtain ⟨hc, ho⟩ := ho
  obtain ⟨c1, c2, c3⟩ := entry_convs hc
  have hmem : MemStable L (fun (_ : Str) (items : List Item) (ctx : Ctx) => loadAlarm L items ctx) :=
    fun _ items => loadAlarm_stable L items
  obtain ⟨items, avail', a1, a2, a3, a4, a5⟩ := rt_obj hmem (memd := dumpAlarm L) (R := SameAlarm L)
    c2 c1 ho.name ho.extra (rep_rt hU ho fun a n hcv m hm => by
      obtain ⟨-, rfl⟩ := c3 _ hcv a n rfl
      exact rt_alarm hU hm) hs (dts := dts) (fun _ => hd)
  refine ⟨items, avail', ?_, a2, a3, a5⟩
  rw [← ho.name]
  exact a1

/-! ### Zones that are known by name -/

theorem dictGet_append_or {κ ν : Type} [DecidableEq κ] (d e : List (κ × ν)) (k : κ) :
    dictGet? (d ++ e) k = (dictGet? d k).or (dictGet? e k) := by
  induction d with
  | nil => rfl
  | cons a d ih =>
    obtain ⟨a, w⟩ := a
    rw [List.cons_append, dictGet?, dictGet?, ih]
    split
    · rfl
    · rfl

theorem knows_iff {L : Lib} {zones : List (Str × Nat)} {n : Str} {z : Nat} :
    Knows L zones n z ↔ L.toWorld.resolve (some zones) n = some z := by
  unfold Knows World.resolve
  show _ ↔ (match dictGet? zones n with | some z => some z | none => _) = _
  cases dictGet? zones n with
  | some w => simp
  | none =>
    cases L.fromTzid n with
    | some w => simp
    | none => simp

/-- Known zones can be added to the dictionary without changing what any TZID stands for. -/
theorem resolve_known {L : Lib} {used zones : List (Str × Nat)}
    (h : ∀ n z, dictGet? used n = some z → Knows L zones n z) :
    SubDict used (used ++ zones) ∧ L.toWorld.resolve (some (used ++ zones)) = L.toWorld.resolve (some zones) := by
  refine ⟨fun k v e => by rw [dictGet_append_or, e]; rfl, funext fun n => ?_⟩
  cases e : dictGet? used n with
  | some z =>
    rw [knows_iff.1 (h n z e)]
    show (match dictGet? (used ++ zones) n with | some z => some z | none => _) = _
    rw [dictGet_append_or, e]
    rfl
  | none =>
    show (match dictGet? (used ++ zones) n with | some z => some z | none => _) = _
    rw [dictGet_append_or, e]
    rfl

theorem load_known {L : Lib} {c : Cls} {items : List Item} {used zones : List (Str × Nat)} {P : EntryObj → Prop}
    (h : ∀ n z, dictGet? used n = some z → Knows L zones n z)
    (hl : ∃ o ctx', loadEntry L c items (some (used ++ zones)) = .ok (o, ctx') ∧ P o) :
    ∃ o ctx', loadEntry L c items (some zones) = .ok (o, ctx') ∧ P o := by
  obtain ⟨r, hr⟩ := loadEntry_stable L c items
  obtain ⟨o, ctx', h1, h2⟩ := hl
  have k1 := hr (some (used ++ zones)) rfl
  have k2 := hr (some zones) rfl
  rw [(resolve_known h).2] at k1
  beta_reduce at k1 k2
  rw [h1] at k1
  unfold Outcome at k1 k2
  cases hx : r (L.toWorld.resolve (some zones)) with
  | error e =>
    rw [hx] at k1
    cases k1
  | ok a =>
    rw [hx] at k1 k2
    obtain ⟨_, k1, _⟩ := k1
    obtain ⟨ctx2, k2, _⟩ := k2
    cases k1
    exact ⟨o, ctx2, k2, h2⟩

end Ics
