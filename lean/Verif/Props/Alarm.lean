import Verif.Proofs.RtEntry

/-
C52: the class of an alarm and its ACTION.
-/
namespace Ics

/-- Which class stands for which action: four words, exactly as they are spelled here, and a class for
everything else. -/
def ActionCls (action : Str) (c : Cls) : Prop :=
  (c = .audioAlarm ∧ action = "AUDIO".toList) ∨ (c = .displayAlarm ∧ action = "DISPLAY".toList) ∨
    (c = .emailAlarm ∧ action = "EMAIL".toList) ∨ (c = .noneAlarm ∧ action = "NONE".toList) ∨
    (c = .customAlarm ∧ action ∉ ["AUDIO", "DISPLAY", "EMAIL", "NONE"].map String.toList)

theorem actionCls_iff {s : Str} {c : Cls} : alarmCls s = c ↔ ActionCls s c := by
  unfold alarmCls ActionCls
  by_cases h1 : s = "DISPLAY".toList
  · subst h1
    rw [if_pos rfl]
    constructor
    · rintro rfl
      exact Or.inr (Or.inl ⟨rfl, rfl⟩)
    · rintro (h | h | h | h | h)
      · exact absurd h.2 (by decide)
      · exact h.1.symm
      · exact absurd h.2 (by decide)
      · exact absurd h.2 (by decide)
      · exact absurd h.2 (by decide)
  rw [if_neg h1]
  by_cases h2 : s = "AUDIO".toList
  · subst h2
    rw [if_pos rfl]
    constructor
    · rintro rfl
      exact Or.inl ⟨rfl, rfl⟩
    · rintro (h | h | h | h | h)
      · exact h.1.symm
      · exact absurd h.2 (by decide)
      · exact absurd h.2 (by decide)
      · exact absurd h.2 (by decide)
      · exact absurd h.2 (by decide)
  rw [if_neg h2]
  by_cases h3 : s = "NONE".toList
  · subst h3
    rw [if_pos rfl]
    constructor
    · rintro rfl
      exact Or.inr (Or.inr (Or.inr (Or.inl ⟨rfl, rfl⟩)))
    · rintro (h | h | h | h | h)
      · exact absurd h.2 (by decide)
      · exact absurd h.2 (by decide)
      · exact absurd h.2 (by decide)
      · exact h.1.symm
      · exact absurd h.2 (by decide)
  rw [if_neg h3]
  by_cases h4 : s = "EMAIL".toList
  · subst h4
    rw [if_pos rfl]
    constructor
    · rintro rfl
      exact Or.inr (Or.inr (Or.inl ⟨rfl, rfl⟩))
    · rintro (h | h | h | h | h)
      · exact absurd h.2 (by decide)
      · exact absurd h.2 (by decide)
      · exact h.1.symm
      · exact absurd h.2 (by decide)
      · exact absurd h.2 (by decide)
  rw [if_neg h4]
  constructor
  · rintro rfl
    refine Or.inr (Or.inr (Or.inr (Or.inr ⟨rfl, ?_⟩)))
    intro h
    simp only [List.map_cons, List.map_nil, List.mem_cons, List.not_mem_nil, or_false] at h
    rcases h with h | h | h | h
    · exact h2 h
    · exact h1 h
    · exact h4 h
    · exact h3 h
  · rintro (h | h | h | h | h)
    · exact absurd h.2 h2
    · exact absurd h.2 h1
    · exact absurd h.2 h4
    · exact absurd h.2 h3
    · exact h.1.symm

/-- C52, rejection: an alarm text without or with more than one ACTION is rejected with a `ValueError`. -/
theorem C52_rejects (L : Lib) (items : List Item) (ctx : Ctx) (h : (named "ACTION" items).length ≠ 1) :
    loadAlarm L items ctx = .error .valueError := by
  have hone : oneItem items "ACTION".toList = .error .valueError := by
    unfold oneItem
    unfold named at h
    split
    · rename_i i e
      rw [e] at h
      exact absurd rfl h
    · rfl
  simp only [loadAlarm, hone, bind, Except.bind]

/-- An alarm text with two different actions, and one with none. -/
example : (named "ACTION" [exLine "ACTION" "AUDIO", exLine "TRIGGER" "-PT5M", exLine "ACTION" "DISPLAY"]).length = 2 ∧
    (named "ACTION" [exLine "TRIGGER" "-PT5M"]).length = 0 := by decide

/-- The converter of the action of a custom alarm. -/
def customSpec : AttrSpec := ⟨"_action".toList, "ACTION".toList, false, false, [.text], .any⟩

/-- C52, reading: the class of an alarm that was read is the one of the text of its ACTION line, and its
action is that text (for a custom alarm after unescaping). -/
theorem C52_read (L : Lib) (items : List Item) (zones : List (Str × Nat)) (o : Alarm) (ctx' : Ctx)
    (h : loadAlarm L items (some zones) = .ok (o, ctx')) :
    ∃ cl act, named "ACTION" items = [.line cl] ∧ ActionCls cl.value o.cls ∧
      unescapeText cl.value = .ok act ∧ o.action = .one (.text act) ∧ (o.cls ≠ .customAlarm → act = cl.value) := by
  simp only [loadAlarm, bind_ok_iff] at h
  obtain ⟨i, h1, h⟩ := h
  have hn : named "ACTION" items = [i] := by
    unfold oneItem at h1
    unfold named
    split at h1
    · rename_i j e
      cases h1
      exact e
    · cases h1
  cases i with
  | cont n is => cases h
  | line cl =>
    have hf := (loadObj_frame h).1
    dsimp only at hf
    have hac := actionCls_iff.1 hf.symm
    refine ⟨cl, ?_⟩
    have hstd : ∀ (s : Str) (c : Cls), o.cls = c → cl.value = s → unescapeText s = .ok s →
        (∀ o : Alarm, o.cls = c → o.action = .one (.text s)) →
        ∃ act, named "ACTION" items = [.line cl] ∧ ActionCls cl.value o.cls ∧
          unescapeText cl.value = .ok act ∧ o.action = .one (.text act) ∧ (o.cls ≠ .customAlarm → act = cl.value) := by
      intro s c h1 h2 h3 h4
      exact ⟨s, hn, hac, by rw [h2]; exact h3, h4 o h1, fun _ => h2.symm⟩
    have hact : ∀ o : Alarm, o.action = match o.cls with
        | .audioAlarm => .one (.text "AUDIO".toList)
        | .displayAlarm => .one (.text "DISPLAY".toList)
        | .emailAlarm => .one (.text "EMAIL".toList)
        | .noneAlarm => .one (.text "NONE".toList)
        | _ => o.get "_action".toList := fun o => rfl
    rcases hac with k | k | k | k | k
    · exact hstd _ _ k.1 k.2 (by decide +kernel) fun o h => by rw [hact, h]
    · exact hstd _ _ k.1 k.2 (by decide +kernel) fun o h => by rw [hact, h]
    · exact hstd _ _ k.1 k.2 (by decide +kernel) fun o h => by rw [hact, h]
    · exact hstd _ _ k.1 k.2 (by decide +kernel) fun o h => by rw [hact, h]
    · have hmem : MemStable L (fun (_ : Str) (_ : List Item) (_ : Ctx) =>
          (.error .notImplementedError : Except PyErr (Empty × Ctx))) := fun _ _ => Stable.error _ _
      have hcc : alarmCls cl.value = .customAlarm := hf.symm.trans k.1
      dsimp only at h
      rw [hcc] at h
      have hown : Conv.own (.value customSpec) items = [.line cl] := by
        rw [← hn]
        unfold Conv.own named
        congr 1
        funext i
        exact decide_eq_decide.2 List.mem_singleton
      rcases load_single hmem rfl h (s := customSpec) (by decide) rfl with e | ⟨cl', p, cv, v, p', c', w, e1, e2, e3, e4, e5, _⟩
      · rw [hown] at e
        cases e.1
      · rw [hown] at e1
        cases e1
        have hcv : cv = .text := List.mem_singleton.1 (prepare_ok e2).2
        subst hcv
        simp only [ValConv.parse, map_ok_iff] at e3
        obtain ⟨act, e3, e6⟩ := e3
        cases e6
        have e4 := Except.ok.inj e4
        subst e4
        refine ⟨act, hn, Or.inr (Or.inr (Or.inr (Or.inr k))), e3, ?_, fun hne => absurd k.1 hne⟩
        rw [hact, k.1]
        exact get_of_dict e5

/-- C52, standard alarms: an alarm of one of the four standard classes that is representable is written,
and reading it back gives the same alarm: the same class with the same action (and everything else). -/
theorem C52_standard (L : Lib) (hU : UtcOk L) (zs : List (Str × Nat)) (o : Alarm) (ho : RepAlarm L zs o) :
    ∃ items used, dumpAlarm L o { ctx := some [] } = .ok (.cont "VALARM".toList items, { ctx := some used }) ∧
      ∀ zones, SubDict used zones → ∃ o' ctx', loadAlarm L items (some zones) = .ok (o', ctx') ∧
        o'.cls = o.cls ∧ o'.action = o.action ∧ SameAlarm L o o' := by
  obtain ⟨items, used, h1, _, _, h2⟩ := rt_alarm (need := false) hU ho [] false (fun _ _ h => nomatch h) (fun _ => rfl)
  refine ⟨items, used, h1, fun zones hz => ?_⟩
  obtain ⟨o', ctx', h3, h4⟩ := h2 zones hz
  refine ⟨o', ctx', h3, h4.cls.symm, ?_, h4⟩
  have hc := h4.cls
  have := ho.1
  unfold Obj.action
  rw [← hc]
  simp only [List.mem_cons, List.not_mem_nil, or_false] at this
  rcases this with e | e | e | e <;> rw [e]

/-- C52, every alarm of the four standard classes: whenever it is written and read without an error, the
class and the action are the same. -/
theorem C52_same_class (L : Lib) (o o' : Alarm) (hc : o.cls ∈ [Cls.audioAlarm, .displayAlarm, .emailAlarm, .noneAlarm])
    (st st' : DState) (n : Str) (items : List Item) (ctx ctx' : Ctx) (hd : dumpAlarm L o st = .ok (.cont n items, st'))
    (hl : loadAlarm L items ctx = .ok (o', ctx')) : o'.cls = o.cls ∧ o'.action = o.action := by
  obtain ⟨c1, c2, c3, c4, c5⟩ := alarm_convs hc
  have hcu : o.cls ≠ .customAlarm := by
    simp only [List.mem_cons, List.not_mem_nil, or_false] at hc
    rcases hc with e | e | e | e <;> rw [e] <;> decide
  obtain ⟨known, e1, e2, e3⟩ := dumpObj_parts (nameOf := fun m => nomatch m) (mem := fun (m : Empty) _ => nomatch m)
    (fun m => nomatch m) (fun a n hcv => absurd rfl (c5 _ hcv a n)) hd
  obtain ⟨st1, st2, e4⟩ := e3 hcu _ c1
  obtain ⟨p, act, e5, e6⟩ := own_action c1 hcu e4
  have e1 : items = known ++ o.extra := by injection e1
  have key : o'.cls = o.cls := by
    simp only [loadAlarm, bind_ok_iff] at hl
    obtain ⟨i, h1, hl⟩ := hl
    have hn : Conv.own .alarmAction items = [i] := by
      have : Conv.own .alarmAction items = items.filter fun i => i.name = "ACTION".toList := by
        unfold Conv.own
        congr 1
        funext i
        exact decide_eq_decide.2 List.mem_singleton
      rw [this]
      unfold oneItem at h1
      split at h1
      · rename_i j e
        cases h1
        exact e
      · cases h1
    rw [e1, own_append, e5, List.singleton_append, List.cons.injEq] at hn
    rw [← hn.1] at hl
    rw [(loadObj_frame hl).1]
    exact e6
  refine ⟨key, ?_⟩
  unfold Obj.action
  rw [key]
  simp only [List.mem_cons, List.not_mem_nil, or_false] at hc
  rcases hc with e | e | e | e <;> rw [e]

/-- C52 fails for custom alarms: the action is written twice, so what was written for a custom alarm is
never accepted by the reader. -/
theorem C52_custom_fails (L : Lib) (o : Alarm) (hc : o.cls = .customAlarm) (st st' : DState) (n : Str)
    (items : List Item) (hd : dumpAlarm L o st = .ok (.cont n items, st')) (ctx : Ctx) :
    (named "ACTION" items).length ≥ 2 ∧ loadAlarm L items ctx = .error .valueError := by
  have key : (named "ACTION" items).length ≥ 2 := by
    simp only [dumpAlarm, dumpObj, bind_ok_iff] at hd
    obtain ⟨⟨is, st1⟩, h1, h⟩ := hd
    have e : is ++ o.extra = items := by
      have := congrArg Prod.fst (Except.ok.inj h)
      injection this
    rw [hc] at h1
    obtain ⟨parts, rfl, hp⟩ := dumpConvs_parts h1
    have hconvs : Cls.customAlarm.convs = [.alarmAction, attr1 "trigger" "TRIGGER" [.duration, .datetime] .trigger,
      attr1 "repeat" "REPEAT" [.integer], attr1 "duration" "DURATION" [.duration] .timedelta, .value customSpec] := rfl
    rw [hconvs] at hp
    cases hp with
    | @cons _ pa _ _ ha hp =>
    cases hp with
    | @cons _ pb _ _ hb hp =>
    cases hp with
    | @cons _ pc _ _ hb hp =>
    cases hp with
    | @cons _ pd _ _ hb hp =>
    cases hp with
    | @cons _ pe _ _ hz hp =>
    cases hp
    obtain ⟨_, _, ha⟩ := ha
    obtain ⟨_, _, hz⟩ := hz
    have hact : o.action = o.get "_action".toList := by
      unfold Obj.action
      rw [hc]
    have na : ∃ cl, pa = [.line cl] ∧ cl.name = "ACTION".toList := by
      have ha : dumpAction o _ = _ := ha
      unfold dumpAction at ha
      split at ha
      · cases ha
        exact ⟨_, rfl, by show upper "ACTION".toList = _; decide⟩
      · cases ha
        exact ⟨_, rfl, by show upper "ACTION".toList = _; decide⟩
      · cases ha
    have nz : ∃ cl, pe = [.line cl] ∧ cl.name = "ACTION".toList := by
      have hz : dumpSingle L customSpec o _ = _ := hz
      have ha : dumpAction o _ = _ := ha
      unfold dumpSingle at hz
      split at hz
      · rename_i e
        unfold dumpAction at ha
        rw [hact] at ha
        have e : o.get "_action".toList = .none := e
        rw [e] at ha
        cases ha
      · simp only [bind_ok_iff] at hz
        obtain ⟨p, _, x, _, y, _, hz⟩ := hz
        have := congrArg Prod.fst (Except.ok.inj hz)
        exact ⟨_, this.symm, by show upper "ACTION".toList = _; decide⟩
      · cases hz
    obtain ⟨cla, rfl, na⟩ := na
    obtain ⟨clz, rfl, nz⟩ := nz
    have fa : named "ACTION" [Item.line cla] = [.line cla] := List.filter_cons_of_pos (by exact decide_eq_true na)
    have fz : named "ACTION" [Item.line clz] = [.line clz] := List.filter_cons_of_pos (by exact decide_eq_true nz)
    have hap : ∀ x y, named "ACTION" (x ++ y) = named "ACTION" x ++ named "ACTION" y := fun x y => List.filter_append ..
    rw [← e]
    simp only [List.flatten_cons, List.flatten_nil, List.append_nil, hap, fa, fz, List.length_append, List.length_cons,
      List.length_nil]
    omega
  exact ⟨key, C52_rejects L items ctx (by omega)⟩

/-- A custom alarm as it is read, and the two lines that are written for it. -/
example : ((loadAlarm exLib [exLine "ACTION" "X-BLINK", exLine "TRIGGER" "-PT5M"] (some [])).toOption.map
      fun r => (r.1.cls, r.1.action)) = some (.customAlarm, .one (.text "X-BLINK".toList)) ∧
    ((loadAlarm exLib [exLine "ACTION" "X-BLINK", exLine "TRIGGER" "-PT5M"] (some [])).toOption.bind
      fun r => (dumpAlarm exLib r.1 { ctx := some [] }).toOption.map Prod.fst) =
      some (.cont "VALARM".toList [exLine "ACTION" "X-BLINK", exLine "TRIGGER" "-PT5M", exLine "ACTION" "X-BLINK"]) := by
  decide +kernel

/-- The class depends on the spelling. -/
example : alarmCls "audio".toList = .customAlarm ∧ alarmCls "AUDIO".toList = .audioAlarm := by decide

end Ics
