import Verif.Proofs.Faults

/-
Which exceptions the construction of a time span raises.
-/
namespace Ics

theorem sub_raises (e : Env) (a b : DT) : Raises (fun x => x = .typeError ∧ (a.tz.isSome ↔ ¬ b.tz.isSome)) (e.sub a b) := by
  unfold Env.sub
  refine .ite (fun _ => .ok _) fun h => ?_
  unfold Env.utcoffset
  cases ha : a.tz with
  | none =>
    cases hb : b.tz with
    | none => rw [ha, hb] at h; exact absurd rfl h
    | some t => exact .error ⟨rfl, by simp⟩
  | some t =>
    cases hb : b.tz with
    | none => exact .error ⟨rfl, by simp⟩
    | some t' => exact .ok _

theorem mkWall_raises (w : Int) : Raises (fun x => x = .overflowError ∧ ¬ (0 ≤ w ∧ w < maxWall)) (mkWall w) := by
  unfold mkWall
  exact .ite (fun _ => .ok _) fun h => .error ⟨rfl, h⟩

theorem add_raises (d : DT) (td : Int) :
    Raises (fun x => x = .overflowError ∧ ¬ (0 ≤ d.wall + td ∧ d.wall + td < maxWall)) (d.add td) := by
  unfold DT.add
  cases h : mkWall (d.wall + td) with
  | ok w => exact .ok _
  | error x => exact .error (mkWall_raises _ x h)

/-- The exceptions of a time span: its begin is so late that there is no next day, or exactly one of begin and end has a
zone. -/
def BadSpan (s : Span) (x : PyErr) : Prop :=
  ∃ b en, s.begin? = some b ∧ s.end? = some en ∧
    ((x = .typeError ∧ (b.tz.isSome ↔ ¬ en.tz.isSome)) ∨
      (x = .overflowError ∧ s.prec = .day ∧ ¬ (0 ≤ b.wall + dayUs ∧ b.wall + dayUs < maxWall)))

theorem validatePrecision_value (e : Env) (s : Span) (d : DT) : OnlyValue (e.validatePrecision s d) := by
  unfold Env.validatePrecision
  exact .ite (fun _ => .ite (fun _ => .error rfl) fun _ => .ite (fun _ => .error rfl) fun _ => .ok _) fun _ => .ok _

theorem timedeltaCache_ok {p : Precision} (h : p = .day ∨ p = .second) : ∃ u, timedeltaCache p = .ok u := by
  rcases h with rfl | rfl <;> exact ⟨_, rfl⟩

theorem validateDur_value {s : Span} (h : s.prec = .day ∨ s.prec = .second) (d : Int) : OnlyValue (validateDur s d) := by
  obtain ⟨u, hu⟩ := timedeltaCache_ok h
  unfold validateDur
  rw [hu]
  exact (raiseIf_value _).bind fun _ _ => (raiseIf_value _).bind fun _ _ => raiseIf_value _

theorem validateEnd_raises {e : Env} {s : Span} {b en : DT} (hb : s.begin? = some b) (he : s.end? = some en)
    (h : s.prec = .day ∨ s.prec = .second) :
    Raises (fun x => x = .valueError ∨ BadSpan s x) (e.validateEnd s b en) := by
  have hv : ∀ {r : Except PyErr Unit}, OnlyValue r → Raises (fun x => x = .valueError ∨ BadSpan s x) r :=
    fun hr => hr.mono fun _ h => .inl h
  have hsub : Raises (fun x => x = .valueError ∨ BadSpan s x) (e.sub b en) :=
    (sub_raises e b en).mono fun x hx => .inr ⟨b, en, hb, he, .inl hx⟩
  have hsub' : Raises (fun x => x = .valueError ∨ BadSpan s x) (e.sub en b) :=
    (sub_raises e en b).mono fun x hx => .inr ⟨b, en, hb, he, .inl ⟨hx.1, by rw [hx.2, Classical.not_not]⟩⟩
  obtain ⟨u, hu⟩ := timedeltaCache_ok h
  unfold Env.validateEnd
  refine (hv (validatePrecision_value _ _ _)).bind fun _ _ => ?_
  refine (hsub.map).bind fun _ _ => ?_
  refine (hv (raiseIf_value _)).bind fun _ _ => ?_
  refine Raises.bind ?_ fun _ _ => ?_
  · unfold Env.validateOneDay
    refine .ite (fun hp => ?_) fun _ => .ok _
    refine ((add_raises b dayUs).mono fun x hx => .inr ⟨b, en, hb, he, .inr ⟨hx.1, hp, hx.2⟩⟩).bind fun next hn => ?_
    refine Raises.bind (Raises.map ?_) fun _ _ => hv (raiseIf_value _)
    have hz : next.tz = b.tz := by
      unfold DT.add at hn
      split at hn
      · injection hn with hn; rw [← hn]
      · exact absurd hn (by simp)
    refine (sub_raises e en next).mono fun x hx => .inr ⟨b, en, hb, he, .inl ⟨hx.1, ?_⟩⟩
    rw [hz] at hx
    rw [hx.2, Classical.not_not]
  · refine (hv (raiseIf_value _)).bind fun _ _ => (hv (raiseIf_value _)).bind fun _ _ =>
      (hv (raiseIf_value _)).bind fun _ _ => ?_
    unfold Env.validateExtent
    refine Raises.bind ?_ fun d _ => ?_
    · unfold Env.effDur
      rw [hb, he]
      cases s.dur? with
      | some d => exact .ok _
      | none =>
        dsimp only
        cases hs : e.sub en b with
        | ok d => exact .ok _
        | error x => exact .error (hsub' x hs)
    · cases d with
      | none => exact .ok _
      | some d =>
        dsimp only
        rw [hu]
        exact .ite (fun _ => .ok _) fun _ => hv (raiseIf_value _)

theorem validate_raises {e : Env} {s : Span}
    (h : s.begin? = none ∨ s.prec = .day ∨ s.prec = .second) :
    Raises (fun x => x = .valueError ∨ BadSpan s x) (e.validate s) := by
  have hv : ∀ {r : Except PyErr Unit}, OnlyValue r → Raises (fun x => x = .valueError ∨ BadSpan s x) r :=
    fun hr => hr.mono fun _ h => .inl h
  unfold Env.validate
  refine Raises.bind ?_ fun _ _ => hv (raiseIf_value _)
  unfold Env.validateBase
  split
  · rename_i b hb
    have hp : s.prec = .day ∨ s.prec = .second := by
      rcases h with h | h
      · rw [hb] at h; cases h
      · exact h
    refine (hv (validatePrecision_value _ _ _)).bind fun _ _ => Raises.bind ?_ fun _ _ => ?_
    · cases he : s.end? with
      | none => exact .ok _
      | some en => exact validateEnd_raises hb he hp
    · cases hd : s.dur? with
      | none => exact .ok _
      | some d => exact hv (validateDur_value hp d)
  · refine Raises.bind ?_ fun _ _ => hv (raiseIf_value _)
    cases he : s.end? with
    | none => exact .ok _
    | some en => exact hv (validatePrecision_value _ _ _)

theorem mkSpan_raises {e : Env} {s : Span} (h : s.begin? = none ∨ s.prec = .day ∨ s.prec = .second) :
    Raises (fun x => x = .valueError ∨ BadSpan s x) (e.mkSpan s) := by
  unfold Env.mkSpan
  exact (validate_raises h).bind fun _ _ => .ok _

theorem astimezone_raises (e : Env) (d : DT) (t : Tz) :
    Raises (fun x => x = .overflowError ∧
      (let u := d.wall - (match d.tz with | some t => e.tzOff t d.wall d.fold | none => e.sysOff d.wall d.fold)
       ¬ (0 ≤ u ∧ u < maxWall) ∨ ¬ (0 ≤ (e.tzFromUtc t u).1 ∧ (e.tzFromUtc t u).1 < maxWall))) (e.astimezone d t) := by
  have key : ∀ off : Int, Raises (fun x => x = .overflowError ∧ (¬ (0 ≤ d.wall - off ∧ d.wall - off < maxWall) ∨
      ¬ (0 ≤ (e.tzFromUtc t (d.wall - off)).1 ∧ (e.tzFromUtc t (d.wall - off)).1 < maxWall)))
      (match mkWall (d.wall - off) with
        | .error x => .error x
        | .ok u =>
          match mkWall (e.tzFromUtc t u).1 with
          | .ok w => .ok (⟨w, (e.tzFromUtc t u).2, some t⟩ : DT)
          | .error x => .error x) := by
    intro off x hx
    split at hx
    · rename_i y hy
      injection hx with hx
      subst hx
      exact ⟨(mkWall_raises _ _ hy).1, .inl (mkWall_raises _ _ hy).2⟩
    · rename_i u hu
      have : u = d.wall - off := by
        unfold mkWall at hu
        split at hu
        · injection hu with hu; exact hu.symm
        · exact absurd hu (by simp)
      subst this
      split at hx
      · exact absurd hx (by simp)
      · rename_i y hy
        injection hx with hx
        subst hx
        exact ⟨(mkWall_raises _ _ hy).1, .inr (mkWall_raises _ _ hy).2⟩
  unfold Env.astimezone
  refine .ite (fun _ => .ok _) fun _ => ?_
  cases d.tz with
  | none => exact key _
  | some t => exact key _

theorem outOfYears_of {w : Int} (h : ¬ (0 ≤ w ∧ w < maxWall)) : OutOfYears w := by
  have h1 : clock 1 1 1 0 0 0 = 0 := by decide
  have h2 : clock 9999 12 31 23 59 59 + 1000000 = maxWall := by
    have : DayExists 9999 12 31 := ⟨by decide, by decide, by decide, by decide, by decide, by decide⟩
    have := daysSince_eq this
    unfold clock
    rw [this]
    decide
  unfold OutOfYears
  rw [h1, h2]
  omega

/-- The day that has no next day. -/
theorem lastDay_of {y m d : Nat} (hd : DayExists y m d) (h : ¬ (0 ≤ clock y m d 0 0 0 + dayUs ∧ clock y m d 0 0 0 + dayUs < maxWall)) :
    y = 9999 ∧ m = 12 ∧ d = 31 := by
  have he := daysSince_eq hd
  have hv : ValidDate y m d := by
    obtain ⟨h1, h2, h3, h4, h5, h6⟩ := hd
    refine ⟨h1, h3, h4, h5, ?_⟩
    rw [← monthLength_eq y m h3 h4]
    exact h6
  have hn : 1 ≤ ymd2ord y m d := by obtain ⟨_, _, _, _, _⟩ := hv; simp only [ymd2ord]; omega
  have hy := hd.2.1
  have hle : ymd2ord y m d ≤ 3652059 := by
    obtain ⟨h1, h2, h3, h4, h5⟩ := hv
    have hb := monthDay_bound (isLeap y) m (by omega) h2
    have hy := daysBeforeYear_mono (y := y) (y' := 10000) h1 (by omega)
    have h10000 : daysBeforeYear 10000 = 3652059 := by decide
    unfold ymd2ord
    omega
  have h3 : ymd2ord y m d = 3652059 := by
    have : clock y m d 0 0 0 = ((ymd2ord y m d - 1 : Nat) : Int) * 86400000000 := by
      unfold clock
      rw [he]
      push_cast
      omega
    rw [this] at h
    simp only [dayUs, maxWall] at h
    omega
  have h4 := ord2ymd_ymd2ord hv
  rw [h3, show ord2ymd 3652059 = (9999, 12, 31) by decide] at h4
  injection h4 with e1 e2
  injection e2 with e2 e3
  exact ⟨e1.symm, e2.symm, e3.symm⟩

end Ics
