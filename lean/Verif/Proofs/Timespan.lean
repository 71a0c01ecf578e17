import Verif.Spec.Timespan
import Verif.Model.Entry

/-
Lemmas about time spans.
-/
namespace Ics

theorem bind_ok_iff {α β : Type} {x : Except PyErr α} {f : α → Except PyErr β} {b : β} :
    (x >>= f) = .ok b ↔ ∃ a, x = .ok a ∧ f a = .ok b := by
  cases x with
  | ok a => simp [bind, Except.bind]
  | error x => simp [bind, Except.bind]

theorem Env.eq_sameTz (e : Env) {a b : DT} (h : a.tz = b.tz) : e.eq a b = decide (a.wall = b.wall) := by
  simp [Env.eq, h]

theorem Env.eq_floorDay (e : Env) (d : DT) : e.eq d.floorDay d = decide (d.wall % dayUs = 0) := by
  rw [e.eq_sameTz (a := d.floorDay) (b := d) rfl]
  unfold DT.floorDay dayUs
  congr 1
  rw [eq_iff_iff]
  dsimp only
  omega

/-- Python's difference: defined iff both values are of the same kind. -/
theorem Env.sub_eq (e : Env) (a b : DT) :
    e.sub a b = if (a.tz = none ↔ b.tz = none) then .ok (e.extent b a) else .error .typeError := by
  unfold Env.sub Env.extent Env.instant Env.utcoffset
  rcases a with ⟨w1, f1, t1⟩
  rcases b with ⟨w2, f2, t2⟩
  rcases t1 with _ | t1 <;> rcases t2 with _ | t2 <;> simp
  by_cases h : t1 = t2
  · simp [h]
  · have h' : ¬ t2 = t1 := fun x => h x.symm
    simp [h, h']
    omega

theorem Env.extent_neg (e : Env) (a b : DT) : e.extent b a = - e.extent a b := by
  unfold Env.extent
  by_cases h : a.tz = b.tz
  · simp only [h, if_true]
    omega
  · have h' : ¬ b.tz = a.tz := fun x => h x.symm
    simp only [h, h', if_false]
    omega

theorem Env.gt_eq (e : Env) (a b : DT) : e.gt a b =
    if (a.tz = none ↔ b.tz = none) then .ok (decide (e.extent a b < 0)) else .error .typeError := by
  unfold Env.gt Env.cmp
  rw [e.sub_eq, e.extent_neg]
  split
  · simp only [Except.map]
    congr 2
    rw [eq_iff_iff]
    omega
  · rfl

theorem Env.lt_eq (e : Env) (a b : DT) : e.lt a b =
    if (a.tz = none ↔ b.tz = none) then .ok (decide (0 < e.extent a b)) else .error .typeError := by
  unfold Env.lt Env.cmp
  rw [e.sub_eq, e.extent_neg]
  split
  · simp only [Except.map]
    congr 2
    rw [eq_iff_iff]
    omega
  · rfl

theorem Env.le_eq (e : Env) (a b : DT) : e.le a b =
    if (a.tz = none ↔ b.tz = none) then .ok (decide (0 ≤ e.extent a b)) else .error .typeError := by
  unfold Env.le Env.cmp
  rw [e.sub_eq, e.extent_neg]
  split
  · simp only [Except.map]
    congr 2
    rw [eq_iff_iff]
    omega
  · rfl

theorem Env.ge_eq (e : Env) (a b : DT) : e.ge a b =
    if (a.tz = none ↔ b.tz = none) then .ok (decide (e.extent a b ≤ 0)) else .error .typeError := by
  unfold Env.ge Env.cmp
  rw [e.sub_eq, e.extent_neg]
  split
  · simp only [Except.map]
    congr 2
    rw [eq_iff_iff]
    omega
  · rfl

theorem mod_day {w : Int} : w % dayUs = 0 ↔ ∃ q : Int, w = q * (24 * 60 * 60 * 1000000) := by
  unfold dayUs
  constructor
  · intro h; exact ⟨w / 86400000000, by omega⟩
  · rintro ⟨q, rfl⟩; omega

theorem validatePrecision_ok (e : Env) (s : Span) (d : DT) :
    e.validatePrecision s d = .ok () ↔
      (s.prec = .day → d.tz = none ∧ ∃ q : Int, d.wall = q * (24 * 60 * 60 * 1000000)) := by
  unfold Env.validatePrecision
  rw [e.eq_floorDay, ← mod_day]
  by_cases h : s.prec = .day
  · by_cases h2 : d.wall % dayUs = 0
    · rcases d with ⟨w, f, _ | t⟩ <;> simp_all
    · simp [h, h2]
  · simp [h]

theorem precise_ok (p : Precision) (x : Int) :
    PreciseTo p x ↔ ∃ u, timedeltaCache p = .ok u ∧ nearlyZero (x % u) = true := by
  unfold PreciseTo Precision.Unit timedeltaCache nearlyZero dayUs
  cases p with
  | day =>
    simp only [true_and, reduceCtorEq, false_and, or_false, Except.ok.injEq, decide_eq_true_eq]
    constructor
    · rintro ⟨u, q, r, rfl, h⟩
      exact ⟨_, rfl, by omega, by omega⟩
    · rintro ⟨u, rfl, h⟩
      exact ⟨_, x / 86400000000, x % 86400000000, rfl, by omega, by omega, by omega⟩
  | second =>
    simp only [true_and, reduceCtorEq, false_and, false_or, Except.ok.injEq, decide_eq_true_eq]
    constructor
    · rintro ⟨u, q, r, rfl, h⟩
      exact ⟨_, rfl, by omega, by omega⟩
    · rintro ⟨u, rfl, h⟩
      exact ⟨_, x / 1000000, x % 1000000, rfl, by omega, by omega, by omega⟩
  | other s => simp

theorem raiseIf_ok {c : Bool} : raiseIf c = .ok () ↔ c = false := by cases c <;> simp [raiseIf]

theorem seq_ok {x : Except PyErr Unit} {y : Unit → Except PyErr Unit} :
    (x >>= y) = .ok () ↔ x = .ok () ∧ y () = .ok () := by
  rw [bind_ok_iff]
  exact ⟨fun ⟨_, h⟩ => h, fun h => ⟨(), h⟩⟩

theorem precise_ok' (p : Precision) (x : Int) :
    (timedeltaCache p >>= fun u => raiseIf (!nearlyZero (x % u))) = .ok () ↔ PreciseTo p x := by
  rw [precise_ok, bind_ok_iff]
  simp only [raiseIf_ok, Bool.not_eq_false']

theorem validateDur_ok (s : Span) (d : Int) :
    validateDur s d = .ok () ↔
      0 ≤ d ∧ (s.prec = .day → 24 * 60 * 60 * 1000000 ≤ d) ∧ PreciseTo s.prec d := by
  unfold validateDur
  rw [seq_ok, seq_ok, precise_ok', raiseIf_ok, raiseIf_ok]
  unfold dayUs
  simp only [decide_eq_false_iff_not, not_and, Int.not_lt]
  exact Iff.rfl

theorem Env.effDur_eq (e : Env) (s : Span) {b en : DT} (hb : s.begin? = some b) (he : s.end? = some en)
    (hd : s.dur? = none) (hk : b.tz = none ↔ en.tz = none) : e.effDur s = .ok (some (e.extent b en)) := by
  unfold Env.effDur
  rw [hd, he, hb]
  simp only [e.sub_eq, if_pos hk.symm]

theorem validateOneDay_ok (e : Env) (s : Span) {b en : DT} (hm : s.prec = .day → b.tz = none)
    (hk : b.tz = none ↔ en.tz = none) (rb : b.InRange) (re : en.InRange) :
    e.validateOneDay s b en = .ok () ↔
      (s.prec = .day → 24 * 60 * 60 * 1000000 ≤ e.extent b en) := by
  unfold Env.validateOneDay
  by_cases hday : s.prec = .day
  · have htb := hm hday
    have hte := hk.1 htb
    have hext : e.extent b en = en.wall - b.wall := by
      unfold Env.extent; rw [if_pos (htb.trans hte.symm)]
    rw [if_pos hday]
    unfold DT.add mkWall
    by_cases hr : 0 ≤ b.wall + dayUs ∧ b.wall + dayUs < maxWall
    · have hx2 : e.extent en ⟨b.wall + dayUs, false, none⟩ = b.wall + dayUs - en.wall := by
        unfold Env.extent; rw [if_pos hte]
      simp only [if_pos hr, htb, bind, Except.bind, e.lt_eq, hte, iff_self, if_true, raiseIf_ok,
        hday, true_implies, decide_eq_false_iff_not, hx2, hext]
      unfold dayUs
      omega
    · simp only [if_neg hr, bind, Except.bind, reduceCtorEq, false_iff, hday, true_implies, hext]
      have := rb.1
      have := re.2
      unfold dayUs at hr
      omega
  · simp [hday]

theorem validateExtent_ok (e : Env) (s : Span) {b en : DT} (hb : s.begin? = some b)
    (he : s.end? = some en) (hd : s.dur? = none) (hk : b.tz = none ↔ en.tz = none) :
    e.validateExtent s = .ok () ↔ (e.extent b en ≠ 0 → PreciseTo s.prec (e.extent b en)) := by
  unfold Env.validateExtent
  rw [e.effDur_eq s hb he hd hk]
  simp only [bind, Except.bind]
  by_cases hx : e.extent b en = 0
  · simp [hx]
  · rw [if_neg hx]
    simp only [ne_eq, hx, not_false_eq_true, true_implies]
    exact precise_ok' _ _

theorem validateEnd_ok (e : Env) (s : Span) {b en : DT} (hb : s.begin? = some b)
    (he : s.end? = some en) (hm : s.prec = .day → b.tz = none) (rb : b.InRange) (re : en.InRange) :
    e.validateEnd s b en = .ok () ↔
      (s.prec = .day → en.tz = none ∧ ∃ q : Int, en.wall = q * (24 * 60 * 60 * 1000000)) ∧
      (b.tz = none ↔ en.tz = none) ∧ 0 ≤ e.extent b en ∧
      (s.prec = .day → 24 * 60 * 60 * 1000000 ≤ e.extent b en) ∧ s.dur? = none ∧
      (e.extent b en ≠ 0 → PreciseTo s.prec (e.extent b en)) := by
  unfold Env.validateEnd
  rw [seq_ok, validatePrecision_ok]
  refine and_congr_right fun _ => ?_
  rw [e.gt_eq]
  by_cases hk : b.tz = none ↔ en.tz = none
  · rw [if_pos hk, and_iff_right hk, bind_ok_iff]
    simp only [Except.ok.injEq, exists_eq_left', seq_ok, raiseIf_ok, decide_eq_false_iff_not]
    rw [validateOneDay_ok e s hm hk rb re]
    refine and_congr (by omega) (and_congr_right fun _ => ?_)
    cases hd : s.dur? with
    | some d => simp
    | none =>
      rw [validateExtent_ok e s hb he hd hk]
      cases h1 : b.tz <;> cases h2 : en.tz <;> simp_all
  · simp [hk, bind, Except.bind]

theorem validate_ok (e : Env) (s : Span) (hr : s.InRange) :
    e.validate s = .ok () ↔ WellFormed e s := by
  unfold Env.validate Env.validateBase
  rw [seq_ok, raiseIf_ok]
  rcases s with ⟨cls, b, en, d, p⟩
  cases b with
  | none =>
    dsimp only
    rw [seq_ok, raiseIf_ok]
    cases en with
    | none =>
      cases d with
      | none =>
        constructor
        · intro _; constructor <;> simp
        · intro _; exact ⟨⟨rfl, rfl⟩, by simp⟩
      | some d =>
        simp only [Option.isSome_some, reduceCtorEq, and_false, false_and, false_iff]
        intro h; exact h.durBegin (by simp) rfl
    | some en =>
      simp only [ifGiven, validatePrecision_ok]
      cases d with
      | none =>
        cases cls with
        | event =>
          simp only [Option.isSome_some, Option.isNone_none, decide_true, Bool.and_self,
            reduceCtorEq, and_false, false_iff]
          intro h; exact h.eventEnd rfl (by simp) rfl
        | plain =>
          constructor
          · rintro ⟨⟨h, -⟩, -⟩; constructor <;> simp_all
          · intro h; exact ⟨⟨fun hp => h.midnights hp _ (Or.inr rfl), rfl⟩, rfl⟩
        | todo =>
          constructor
          · rintro ⟨⟨h, -⟩, -⟩; constructor <;> simp_all
          · intro h; exact ⟨⟨fun hp => h.midnights hp _ (Or.inr rfl), rfl⟩, rfl⟩
      | some d =>
        simp only [Option.isSome_some, reduceCtorEq, and_false, false_and, false_iff]
        intro h; exact h.durBegin (by simp) rfl
  | some b =>
    have rb := hr.1 b rfl
    dsimp only
    rw [seq_ok, seq_ok, validatePrecision_ok]
    cases en with
    | none =>
      cases d with
      | none =>
        constructor
        · rintro ⟨⟨h, -⟩, -⟩; constructor <;> simp_all
        · intro h; exact ⟨⟨fun hp => h.midnights hp _ (Or.inl rfl), rfl, rfl⟩, by simp⟩
      | some d =>
        simp only [ifGiven, validateDur_ok]
        constructor
        · rintro ⟨⟨h, -, h1, h2, h3⟩, -⟩; constructor <;> simp_all
        · intro h
          exact ⟨⟨fun hp => h.midnights hp _ (Or.inl rfl), trivial, h.durNonneg d rfl,
            fun hp => h.oneDayDur hp d rfl, h.preciseDur d rfl⟩, by simp⟩
    | some en =>
      have re := hr.2 en rfl
      simp only [ifGiven]
      constructor
      · rintro ⟨⟨h, h1, h2⟩, -⟩
        have h1 := (validateEnd_ok e _ rfl rfl (fun hp => (h hp).1) rb re).1 h1
        obtain ⟨h3, h4, h5, h6, h7, h8⟩ := h1
        dsimp only at h7
        subst h7
        have hm : p = .day → ∀ x, b = x ∨ en = x →
            x.tz = none ∧ ∃ q : Int, x.wall = q * (24 * 60 * 60 * 1000000) := by
          rintro hp x (rfl | rfl)
          · exact h hp
          · exact h3 hp
        clear h h3
        constructor <;> simp_all
      · intro h
        have hd : d = none := by simpa using h.notBoth
        subst hd
        refine ⟨⟨fun hp => h.midnights hp _ (Or.inl rfl), ?_, rfl⟩, by simp⟩
        rw [validateEnd_ok e _ rfl rfl (fun hp => (h.midnights hp _ (Or.inl rfl)).1) rb re]
        exact ⟨fun hp => h.midnights hp _ (Or.inr rfl), h.kinds _ _ rfl rfl, h.order _ _ rfl rfl,
          fun hp => h.oneDay hp _ _ rfl rfl, rfl, h.precise _ _ rfl rfl⟩

theorem mkSpan_ok {e : Env} {s t : Span} : e.mkSpan s = .ok t ↔ e.validate s = .ok () ∧ s = t := by
  unfold Env.mkSpan
  rw [bind_ok_iff]
  constructor
  · rintro ⟨_, h, h2⟩; exact ⟨h, by injection h2⟩
  · rintro ⟨h, rfl⟩; exact ⟨(), h, rfl⟩

theorem mkSpan_of_wf {e : Env} {t : Span} (hr : t.InRange) (hw : WellFormed e t) : e.mkSpan t = .ok t :=
  mkSpan_ok.2 ⟨(validate_ok e t hr).2 hw, rfl⟩

/-! ### Values stay in range -/

theorem mkWall_ok {w v : Int} : mkWall w = .ok v ↔ 0 ≤ w ∧ w < maxWall ∧ v = w := by
  unfold mkWall
  split <;> rename_i h
  · simp only [Except.ok.injEq]
    exact ⟨fun h' => ⟨h.1, h.2, h'.symm⟩, fun h' => h'.2.2.symm⟩
  · simp only [reduceCtorEq, false_iff]
    rintro ⟨h1, h2, -⟩; exact h ⟨h1, h2⟩

theorem add_ok {d x : DT} {t : Int} : d.add t = .ok x ↔
    0 ≤ d.wall + t ∧ d.wall + t < maxWall ∧ x = ⟨d.wall + t, false, d.tz⟩ := by
  unfold DT.add
  cases h : mkWall (d.wall + t) with
  | ok w =>
    obtain ⟨h1, h2, rfl⟩ := mkWall_ok.1 h
    simp only [Except.ok.injEq, h1, h2, true_and]
    exact eq_comm
  | error x =>
    simp only [reduceCtorEq, false_iff]
    rintro ⟨h1, h2, -⟩
    rw [mkWall_ok.2 ⟨h1, h2, rfl⟩] at h
    cases h

theorem add_inRange {d x : DT} {t : Int} (h : d.add t = .ok x) : x.InRange := by
  obtain ⟨h1, h2, rfl⟩ := add_ok.1 h
  exact ⟨h1, h2⟩

theorem floorDay_inRange {d : DT} (h : d.InRange) : d.floorDay.InRange := by
  unfold DT.InRange DT.floorDay dayUs at *
  dsimp only
  omega

theorem ceilDay_inRange {e : Env} {d x : DT} (hd : d.InRange) (h : e.ceilDay d = .ok x) : x.InRange := by
  unfold Env.ceilDay at h
  split at h
  · injection h with h; subst h; exact floorDay_inRange hd
  · exact add_inRange h

theorem astimezone_inRange {e : Env} {d x : DT} {t : Tz} (hd : d.InRange)
    (h : e.astimezone d t = .ok x) : x.InRange := by
  unfold Env.astimezone at h
  split at h
  · injection h with h; subst h; exact hd
  · dsimp only at h
    split at h
    · cases h
    · split at h
      · rename_i hw
        injection h with h
        subst h
        obtain ⟨h1, h2, rfl⟩ := mkWall_ok.1 hw
        exact ⟨h1, h2⟩
      · cases h

theorem astimezone?_inRange {e : Env} {d x : DT} {t : Option Tz} (hd : d.InRange)
    (h : e.astimezone? d t = .ok x) : x.InRange := by
  unfold Env.astimezone? at h
  split at h
  · exact astimezone_inRange hd h
  · split at h <;> exact astimezone_inRange hd h

theorem convertOpt_ok {e : Env} {d x : Option DT} {t : Option Tz} (h : e.convertOpt d t = .ok x) :
    (d = none ∧ x = none) ∨ ∃ a b, d = some a ∧ x = some b ∧ e.astimezone? a t = .ok b := by
  unfold Env.convertOpt at h
  cases d with
  | none => injection h with h; exact Or.inl ⟨rfl, h.symm⟩
  | some d =>
    dsimp only at h
    cases h2 : e.astimezone? d t with
    | ok v => rw [h2] at h; injection h with h; exact Or.inr ⟨d, v, rfl, h.symm, h2⟩
    | error x => rw [h2] at h; cases h

theorem effEnd_inRange {e : Env} {s : Span} {x : DT} (hr : s.InRange) (h : e.effEnd s = .ok (some x)) :
    x.InRange := by
  unfold Env.effEnd at h
  cases he : s.end? with
  | some en =>
    rw [he] at h
    injection h with h; injection h with h; subst h; exact hr.2 _ he
  | none =>
    rw [he] at h
    cases hb : s.begin? with
    | none => rw [hb] at h; cases h
    | some b =>
      rw [hb] at h
      dsimp only at h
      cases hd : e.effDur s with
      | error x => rw [hd] at h; cases h
      | ok d =>
        rw [hd] at h
        cases d with
        | none => cases h
        | some d =>
          dsimp only at h
          cases ha : b.add d with
          | error x => rw [ha] at h; cases h
          | ok y =>
            rw [ha] at h; injection h with h; injection h with h; subst h; exact add_inRange ha

/-! ### Every operation that gives a span gives a well-formed one -/

/-- What every operation maintains. -/
structure Good (e : Env) (cls : SpanCls) (s : Span) : Prop where
  wf : WellFormed e s
  inRange : s.InRange
  cls : s.cls = cls

theorem mkSpan_good {e : Env} {s t : Span} (hr : s.InRange) (h : e.mkSpan s = .ok t) :
    Good e s.cls t := by
  obtain ⟨hv, rfl⟩ := mkSpan_ok.1 h
  exact ⟨(validate_ok e s hr).1 hv, hr, rfl⟩

theorem replaceTimezone_good {e : Env} {s t : Span} {z : Option Tz} (hr : s.InRange)
    (h : e.replaceTimezone s z = .ok t) : Good e s.cls t := by
  unfold Env.replaceTimezone at h
  split at h
  · cases h
  · refine mkSpan_good (s := { s with
        begin? := s.begin?.map (·.replaceTz z)
        end? := s.end?.map (·.replaceTz z) }) ⟨?_, ?_⟩ h
    · intro b hb
      obtain ⟨b', hb', rfl⟩ := Option.map_eq_some_iff.1 hb
      have := hr.1 _ hb'
      exact this
    · intro b hb
      obtain ⟨b', hb', rfl⟩ := Option.map_eq_some_iff.1 hb
      have := hr.2 _ hb'
      exact this

theorem convertTimezone_ok {e : Env} {s t : Span} {z : Option Tz} (h : e.convertTimezone s z = .ok t) :
    s.prec ≠ .day ∧ ∃ b en, e.convertOpt s.begin? z = .ok b ∧ e.convertOpt s.end? z = .ok en ∧
      e.mkSpan { s with begin? := b, end? := en } = .ok t := by
  unfold Env.convertTimezone at h
  split at h
  · cases h
  · rename_i hd
    refine ⟨by simpa [Span.isAllDay] using hd, ?_⟩
    obtain ⟨b, hb, h⟩ := bind_ok_iff.1 h
    obtain ⟨en, he, h⟩ := bind_ok_iff.1 h
    exact ⟨b, en, hb, he, h⟩

theorem convertTimezone_good {e : Env} {s t : Span} {z : Option Tz} (hr : s.InRange)
    (h : e.convertTimezone s z = .ok t) : Good e s.cls t := by
  obtain ⟨-, b, en, hb, he, h⟩ := convertTimezone_ok h
  refine mkSpan_good (s := { s with begin? := b, end? := en }) ⟨?_, ?_⟩ h
  · rintro x rfl
    rcases convertOpt_ok hb with ⟨-, h⟩ | ⟨a, y, h1, h2, h3⟩
    · cases h
    · injection h2 with h2; subst h2; exact astimezone?_inRange (hr.1 _ h1) h3
  · rintro x rfl
    rcases convertOpt_ok he with ⟨-, h⟩ | ⟨a, y, h1, h2, h3⟩
    · cases h
    · injection h2 with h2; subst h2; exact astimezone?_inRange (hr.2 _ h1) h3

theorem allDayEnd_inRange {e : Env} {b : Option DT} {d x : DT} (hd : d.InRange)
    (h : e.allDayEnd b d = .ok x) : x.InRange := by
  unfold Env.allDayEnd at h
  obtain ⟨c, hc, h⟩ := bind_ok_iff.1 h
  have hc := ceilDay_inRange hd hc
  cases b with
  | none => injection h with h; subst h; exact hc
  | some b =>
    dsimp only at h
    split at h
    · exact add_inRange h
    · injection h with h; subst h; exact hc

theorem allDayEnd?_ok {e : Env} {s : Span} {x : Option DT} (h : e.allDayEnd? s = .ok x) :
    (e.effEnd s = .ok none ∧ x = none) ∨ ∃ en y, e.effEnd s = .ok (some en) ∧ x = some y ∧
      e.allDayEnd (s.begin?.map fun b => b.floorDay.replaceTz none) en = .ok y := by
  obtain ⟨o, ho, h⟩ := bind_ok_iff.1 h
  cases o with
  | none => injection h with h; exact Or.inl ⟨ho, h.symm⟩
  | some en =>
    obtain ⟨y, hy, h⟩ := bind_ok_iff.1 h
    injection h with h
    exact Or.inr ⟨en, y, ho, h.symm, hy⟩

theorem makeAllDay_good {e : Env} {s t : Span} (hs : Good e s.cls s)
    (h : e.makeAllDay s = .ok t) : Good e s.cls t := by
  by_cases hp : s.prec = .day
  · unfold Env.makeAllDay at h
    rw [if_pos (by simpa [Span.isAllDay] using hp)] at h
    injection h with h
    subst h
    exact hs
  · unfold Env.makeAllDay at h
    rw [if_neg (by simpa [Span.isAllDay] using hp)] at h
    obtain ⟨o, ho, h⟩ := bind_ok_iff.1 h
    unfold Env.makeAllDayFrom at h
    have hb : ∀ b, (s.begin?.map fun b => b.floorDay.replaceTz none) = some b → b.InRange := by
      intro b hb
      obtain ⟨b', hb', rfl⟩ := Option.map_eq_some_iff.1 hb
      exact floorDay_inRange (hs.inRange.1 _ hb')
    have ho : ∀ x, o = some x → x.InRange := by
      rintro x rfl
      rcases allDayEnd?_ok ho with ⟨-, h⟩ | ⟨en, y, h1, h2, h3⟩
      · cases h
      · injection h2 with h2; subst h2
        exact allDayEnd_inRange (effEnd_inRange hs.inRange h1) h3
    split at h
    · cases o with
      | none => cases h
      | some en =>
        generalize (s.begin?.map fun b => b.floorDay.replaceTz none) = ob at hb h
        cases ob with
        | none => cases h
        | some b =>
          obtain ⟨d, -, h⟩ := bind_ok_iff.1 h
          exact mkSpan_good
            (s := { s with begin? := some b, end? := none, dur? := some d, prec := .day })
            ⟨hb, by simp⟩ h
    · exact mkSpan_good (s := { s with
        begin? := s.begin?.map fun b => b.floorDay.replaceTz none
        end? := o, dur? := none, prec := .day }) ⟨hb, ho⟩ h

theorem convertEnd_good {e : Env} {s t : Span} {g : EndTarget} (hs : Good e s.cls s)
    (h : e.convertEnd s g = .ok t) : Good e s.cls t := by
  unfold Env.convertEnd at h
  dsimp only at h
  split at h
  · injection h with h; subst h; exact hs
  · split at h
    · obtain ⟨d, -, h⟩ := bind_ok_iff.1 h
      exact mkSpan_good (s := { s with end? := none, dur? := d }) ⟨hs.inRange.1, by simp⟩ h
    · split at h
      · obtain ⟨en, he, h⟩ := bind_ok_iff.1 h
        refine mkSpan_good (s := { s with end? := en, dur? := none }) ⟨hs.inRange.1, ?_⟩ h
        rintro x rfl
        exact effEnd_inRange hs.inRange he
      · split at h
        · exact mkSpan_good (s := { s with end? := none, dur? := none }) ⟨hs.inRange.1, by simp⟩ h
        · cases h

end Ics
