import Verif.Proofs.RtList

/-
Writing members and actions of alarms and reading them back.
-/
namespace Ics

variable {σ : Type}

/-- Writing a member, from any state, and reading it back. -/
def MemRT (L : Lib) (mem : MemberLoad σ) (memd : MemberDump σ) (R : σ → σ → Prop) (zs : List (Str × Nat)) (need : Bool)
    (n : Str) (m : σ) : Prop :=
  ∀ avail dts, SubDict avail zs → (need = true → dts = false) →
    ∃ items avail', memd m ⟨some avail, dts⟩ = .ok (.cont n items, ⟨some avail', dts⟩) ∧
      SubDict avail avail' ∧ SubDict avail' zs ∧
      ∀ zones, SubDict avail' zones → ∃ m' ctx', mem n items (some zones) = .ok (m', ctx') ∧ R m m'

theorem rt_members {L : Lib} {mem : MemberLoad σ} {memd : MemberDump σ} {R : σ → σ → Prop} {zs : List (Str × Nat)}
    {need : Bool} {a n : Str} {ms : List σ} (h : ∀ m ∈ ms, MemRT L mem memd R zs need n m) {avail : List (Str × Nat)}
    {dts : Bool} (hs : SubDict avail zs) (hd : need = true → dts = false) :
    ∃ part avail', dumpMembers memd (ms.map .comp) ⟨some avail, dts⟩ = .ok (part, ⟨some avail', dts⟩) ∧
      SubDict avail avail' ∧ SubDict avail' zs ∧ (∀ i ∈ part, i.name = n) ∧
      ∀ zones rd, SubDict avail' zones → IsReading L mem (L.toWorld.resolve (some zones)) rd →
        ∃ ms', List.Forall₂ R ms ms' ∧ ∀ (c : Core σ) l, dictGet? c.obj.attrs a = some (.many l) →
          ∃ b, foldConv L rd (.member a n) part c = .ok b ∧
            dictGet? b.obj.attrs a = some (.many (l ++ ms'.map .comp)) ∧ b.obj.extraParams = c.obj.extraParams := by
  induction ms generalizing avail with
  | nil =>
    refine ⟨[], avail, rfl, .refl _, hs, fun i hi => (nomatch hi), fun zones rd _ _ => ⟨[], .nil, fun c l hl => ⟨c, rfl, ?_, rfl⟩⟩⟩
    rw [List.map_nil, List.append_nil, hl]
  | cons m ms ih =>
    obtain ⟨items, avail1, a1, a2, a3, a4⟩ := h m List.mem_cons_self avail dts hs hd
    obtain ⟨part, avail2, b1, b2, b3, b4, b5⟩ := ih (fun m hm => h m (List.mem_cons_of_mem _ hm)) a3
    refine ⟨.cont n items :: part, avail2, ?_, a2.trans b2, b3, fun i hi => ?_, fun zones rd hz hrd => ?_⟩
    · simp only [List.map_cons, dumpMembers, a1, b1, bind, Except.bind]
    · rcases List.mem_cons.1 hi with rfl | hi
      · rfl
      · exact b4 i hi
    · obtain ⟨m', ctx', c1, c2⟩ := a4 zones (b2.trans hz)
      obtain ⟨ms', d1, d2⟩ := b5 zones rd hz hrd
      refine ⟨m' :: ms', .cons c2 d1, fun c l hl => ?_⟩
      have hr : rd (.member a n) (.cont n items) = .ok (.member m') := by
        refine reading_ok (ctx' := ctx') hrd rfl ?_
        simp only [readConv, c1, bind, Except.bind]
      have hstep : coreConv L rd (.member a n) (.cont n items) c =
          .ok { c with obj := { c.obj with attrs := dictSet c.obj.attrs a (.many (l ++ [.comp m'])) } } := by
        simp only [coreConv, preConv, hr, bind, Except.bind, storeConv, Obj.appendValue, Obj.get, hl,
          Option.getD_some, Except.map]
      obtain ⟨b, e1, e2, e3⟩ := d2
        { c with obj := { c.obj with attrs := dictSet c.obj.attrs a (.many (l ++ [.comp m'])) } }
        (l ++ [.comp m']) (dictGet_set _ _ _)
      refine ⟨b, ?_, ?_, e3⟩
      · rw [foldConv, hstep]
        exact e1
      · rw [e2, List.map_cons, List.append_assoc]
        rfl

theorem rt_member {L : Lib} {mem : MemberLoad σ} {memd : MemberDump σ} {R : σ → σ → Prop} {zs : List (Str × Nat)}
    {need : Bool} {o : Obj σ} {a n : Str} (hcv : .member a n ∈ o.cls.convs)
    (hp : dictGet? o.extraParams (upper a) = none) {ms : List σ} (hget : o.get a = .many (ms.map .comp))
    (h : ∀ m ∈ ms, MemRT L mem memd R zs need n m) : RT L mem memd R zs need o (.member a n) := by
  intro avail dts hs hd
  obtain ⟨part, avail', h1, h2, h3, h4, h5⟩ := rt_members (a := a) h hs (fun e => hd (Or.inr e))
  refine ⟨part, avail', dts, ?_, fun _ => rfl, h2, h3, fun i hi => ⟨?_, fun e => nomatch e⟩, fun zones rd hz hrd => ?_⟩
  · simp only [Conv.dump, dumpMember, extraKey, hp, Option.map_none, Option.getD_none, raiseIf, hget, bind, Except.bind,
      Bool.false_eq_true, if_false, h1]
  · rw [h4 i hi]
    exact List.mem_singleton_self _
  · obtain ⟨ms', d1, d2⟩ := h5 zones rd hz hrd
    obtain ⟨b, e1, e2, e3⟩ := d2 (.new L o.cls) [] (new_member hcv)
    refine ⟨b, e1, fun _ k hk => ?_, fun _ k hk => ?_, fun s e => (nomatch e), fun s e => (nomatch e),
      fun s e => (nomatch e), fun e => nomatch e⟩
    · rw [List.mem_singleton.1 hk, hget, get_of_dict e2]
      refine .many ?_
      rw [List.nil_append, List.forall₂_map_left_iff, List.forall₂_map_right_iff]
      exact d1.imp fun _ _ h => .comp h
    · rw [List.mem_singleton.1 hk, e3]
      exact hp

/-! ### Actions -/

/-- The action that each class of alarms has. -/
theorem action_cls {o : Obj σ} (h : .alarmAction ∈ o.cls.convs) (hc : o.cls ≠ .customAlarm) :
    ∃ a, o.action = .one (.text a) ∧ alarmCls a = o.cls := by
  unfold Obj.action
  generalize o.cls = c at *
  cases c
  case customAlarm => exact absurd rfl hc
  case calendar => exact absurd h (by decide +kernel)
  case event => exact absurd h (by decide +kernel)
  case todo => exact absurd h (by decide +kernel)
  all_goals exact ⟨_, rfl, by decide⟩

theorem rt_action {L : Lib} {mem : MemberLoad σ} {memd : MemberDump σ} {R : σ → σ → Prop} {zs : List (Str × Nat)}
    {need : Bool} {o : Obj σ} (hcv : .alarmAction ∈ o.cls.convs) (hc : o.cls ≠ .customAlarm)
    (hp : RepParams [] (dictGet? o.extraParams "ACTION".toList)) : RT L mem memd R zs need o .alarmAction := by
  intro avail dts hs hd
  obtain ⟨act, ha1, ha2⟩ := action_cls hcv hc
  obtain ⟨p, hp1, hp2⟩ : ∃ p : Params, dumpAction o ⟨some avail, dts⟩ =
      .ok ([.line (mkContentLine "ACTION".toList p act)], ⟨some avail, dts⟩) ∧
      dictGet? o.extraParams "ACTION".toList = if p = [] then none else some (.one p) := by
    unfold dumpAction
    rw [ha1]
    generalize dictGet? o.extraParams "ACTION".toList = x at *
    match x, hp with
    | none, _ => exact ⟨[], rfl, rfl⟩
    | some (.one p), h => exact ⟨p, rfl, (if_neg h.1).symm⟩
    | some (.many _), h => exact h.elim
  refine ⟨_, avail, dts, hp1, fun _ => rfl, .refl _, hs, fun i hi => ⟨?_, fun e => nomatch e⟩, fun zones rd hz hrd => ?_⟩
  · rw [List.mem_singleton.1 hi]
    show upper "ACTION".toList ∈ ["ACTION".toList]
    decide
  · have hr : rd .alarmAction (.line (mkContentLine "ACTION".toList p act)) = .ok .unit :=
      reading_ok (ctx' := some zones) hrd rfl rfl
    by_cases hpe : p = []
    · refine ⟨Core.new (σ := σ) L o.cls, ?_, fun _ k hk => (nomatch hk), fun _ k hk => ?_, fun s e => (nomatch e),
        fun s e => (nomatch e), fun s e => (nomatch e), fun e => nomatch e⟩
      · simp only [foldConv, coreConv, preConv, hr, bind, Except.bind, storeConv, storeAction]
        rw [if_neg (by simp only [not_not]; exact ha2.symm),
          if_pos (show (mkContentLine "ACTION".toList p act).params = [] from hpe)]
      · rw [List.mem_singleton.1 hk, hp2, if_pos hpe]
        rfl
    · obtain ⟨b, hb⟩ : ∃ b : Core σ, b = ⟨{ newObj (σ := σ) L o.cls with extraParams := dictSet [] "ACTION".toList (.one p) },
        (Core.new (σ := σ) L o.cls).counts, (Core.new (σ := σ) L o.cls).span⟩ := ⟨_, rfl⟩
      refine ⟨b, ?_, fun _ k hk => (nomatch hk), fun _ k hk => ?_, fun s e => (nomatch e),
        fun s e => (nomatch e), fun s e => (nomatch e), fun e => nomatch e⟩
      · simp only [foldConv, coreConv, preConv, hr, bind, Except.bind, storeConv, storeAction]
        rw [if_neg (by simp only [not_not]; exact ha2.symm),
          if_neg (show ¬ (mkContentLine "ACTION".toList p act).params = [] from hpe), hb]
        rfl
      · rw [List.mem_singleton.1 hk, hp2, if_neg hpe, hb]
        exact (dictGet_set _ _ _).symm

end Ics
