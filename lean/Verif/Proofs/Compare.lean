import Verif.Spec.Order
import Verif.Proofs.Timespan

/-
Lemmas about the comparison of spans.
-/
namespace Ics

/-- The outcome of `CMP_NORMALIZATION` with the object number `k`. -/
def Env.normd (e : Env) (k : Nat) (d : DT) : DT :=
  match d.tz with
  | none => { e.localize d with tz := some (.loc k) }
  | some _ => d

theorem normalizeDT_ok {e : Env} {k : Nat} {d x : DT} :
    e.normalizeDT (cmpNormalization k) d = .ok x ↔ e.Convertible d ∧ x = e.normd k d := by
  rcases d with ⟨w, f, _ | t⟩
  · unfold Env.normalizeDT Normalization.action cmpNormalization Env.astimezone? Env.astimezone
      Env.Convertible Env.normd Env.localize Env.instant DT.InRange Env.tzFromUtc mkWall
    simp only [Option.isNone_none, if_true, reduceCtorEq, if_false, true_implies]
    by_cases h1 : 0 ≤ w - e.sysOff w f ∧ w - e.sysOff w f < maxWall
    · rw [if_pos h1]
      dsimp only
      by_cases h2 : 0 ≤ (e.locFromUtc (w - e.sysOff w f)).1 ∧
          (e.locFromUtc (w - e.sysOff w f)).1 < maxWall
      · rw [if_pos h2]
        simp only [Except.ok.injEq]
        exact ⟨fun h => ⟨⟨h1, h2⟩, h.symm⟩, fun h => h.2.symm⟩
      · rw [if_neg h2]
        constructor
        · intro h; cases h
        · intro h; exact absurd h.1.2 h2
    · rw [if_neg h1]
      constructor
      · intro h; cases h
      · intro h; exact absurd h.1.1 h1
  · unfold Env.normalizeDT Normalization.action cmpNormalization Env.Convertible Env.normd
    simp [eq_comm]

theorem mkWall_error {w : Int} {err : PyErr} (h : mkWall w = .error err) : err = .overflowError := by
  unfold mkWall at h
  split at h
  · cases h
  · cases h; rfl

theorem astimezone_error {e : Env} {d : DT} {t : Tz} {err : PyErr}
    (h : e.astimezone d t = .error err) : err = .overflowError := by
  unfold Env.astimezone at h
  split at h
  · cases h
  · dsimp only at h
    split at h
    · rename_i x hx
      injection h with h; subst h; exact mkWall_error hx
    · split at h
      · cases h
      · rename_i x hx
        injection h with h; subst h; exact mkWall_error hx

theorem normalizeDT_error {e : Env} {k : Nat} {d : DT} {err : PyErr}
    (h : e.normalizeDT (cmpNormalization k) d = .error err) : err = .overflowError := by
  unfold Env.normalizeDT at h
  split at h
  · cases h
  · cases h
  · exact astimezone_error h

theorem normalizeOpt_some {e : Env} {k : Nat} {d : DT} {x : Option DT} :
    e.normalizeOpt (cmpNormalization k) (some d) = .ok x ↔
      e.Convertible d ∧ x = some (e.normd k d) := by
  unfold Env.normalizeOpt
  dsimp only
  cases h : e.normalizeDT (cmpNormalization k) d with
  | ok y =>
    obtain ⟨h1, rfl⟩ := normalizeDT_ok.1 h
    simp only [Except.ok.injEq]
    exact ⟨fun h => ⟨h1, h.symm⟩, fun h => h.2.symm⟩
  | error err =>
    constructor
    · intro h; cases h
    · rintro ⟨h1, rfl⟩
      rw [normalizeDT_ok.2 ⟨h1, rfl⟩] at h
      cases h

/-- The difference that decides between two normalized times. -/
def Env.nsub (e : Env) (a b : DT) : Int :=
  if a.tz = b.tz ∧ a.tz ≠ none then a.wall - b.wall
  else e.instant (e.localize a) - e.instant (e.localize b)

/-- The offset does not depend on `fold`. -/
def Env.clear (e : Env) (d : DT) : Bool :=
  match (e.localize d).tz with
  | none => true
  | some t => decide (e.tzOff t (e.localize d).wall (e.localize d).fold =
      e.tzOff t (e.localize d).wall (!(e.localize d).fold))

/-- `==` on normalized times. -/
def Env.neq (e : Env) (a b : DT) : Bool :=
  if a.tz = b.tz ∧ a.tz ≠ none then decide (a.wall = b.wall)
  else e.clear a && e.clear b &&
    decide (e.instant (e.localize a) = e.instant (e.localize b))

theorem nsub_anti (e : Env) (a b : DT) : e.nsub b a = - e.nsub a b := by
  unfold Env.nsub
  by_cases h : a.tz = b.tz
  · simp only [h, true_and]
    split <;> omega
  · have h' : ¬ b.tz = a.tz := fun x => h x.symm
    simp only [h, h', false_and, if_false]
    omega

theorem neq_symm (e : Env) (a b : DT) : e.neq b a = e.neq a b := by
  unfold Env.neq
  by_cases h : a.tz = b.tz
  · simp only [h, true_and]
    split
    · simp only [eq_comm]
    · rw [Bool.and_comm (e.clear b)]
      congr 1
      simp only [eq_comm]
  · have h' : ¬ b.tz = a.tz := fun x => h x.symm
    simp only [h, h', false_and, if_false]
    rw [Bool.and_comm (e.clear b)]
    congr 1
    simp only [eq_comm]

theorem neq_nsub {e : Env} {a b : DT} (h : e.neq a b = true) : e.nsub a b = 0 := by
  unfold Env.neq at h
  unfold Env.nsub
  split
  · rename_i h'
    rw [if_pos h'] at h
    simp at h
    omega
  · rename_i h'
    rw [if_neg h'] at h
    simp at h
    omega

theorem normd_tz {e : Env} {k : Nat} {d : DT} : (e.normd k d).tz = some (d.tz.getD (.loc k)) := by
  rcases d with ⟨w, f, _ | t⟩ <;> rfl

theorem normd_instant {e : Env} {k : Nat} {d : DT} :
    e.instant (e.normd k d) = e.instant (e.localize d) := by
  rcases d with ⟨w, f, _ | t⟩ <;> rfl

theorem normd_ne {e : Env} {i j k : Nat} {a b : DT} (ha : a.Fresh k) (hb : b.Fresh k) (hi : k ≤ i)
    (hj : k ≤ j) (hij : i ≠ j) :
    (e.normd i a).tz = (e.normd j b).tz ↔ a.tz = b.tz ∧ a.tz ≠ none := by
  rw [normd_tz, normd_tz]
  rcases a with ⟨w1, f1, _ | t1⟩ <;> rcases b with ⟨w2, f2, _ | t2⟩
  · simp [hij]
  · simp only [Option.getD_none, Option.getD_some, Option.some.injEq, reduceCtorEq, false_and, iff_false]
    intro h
    have := hb i (by rw [h])
    omega
  · simp only [Option.getD_none, Option.getD_some, Option.some.injEq, reduceCtorEq, false_and, iff_false]
    intro h
    have := ha j (by rw [h])
    omega
  · simp

theorem sub_normd {e : Env} {i j k : Nat} {a b : DT} (ha : a.Fresh k) (hb : b.Fresh k) (hi : k ≤ i)
    (hj : k ≤ j) (hij : i ≠ j) : e.sub (e.normd i a) (e.normd j b) = .ok (e.nsub a b) := by
  rw [e.sub_eq, if_pos (by rw [normd_tz, normd_tz]; simp)]
  unfold Env.extent Env.nsub
  congr 1
  by_cases h : a.tz = b.tz ∧ a.tz ≠ none
  · rw [if_pos h, if_pos ((normd_ne ha hb hi hj hij).2 h).symm]
    rcases a with ⟨w1, f1, _ | t1⟩
    · simp at h
    · rcases b with ⟨w2, f2, _ | t2⟩
      · simp at h
      · rfl
  · rw [if_neg h, if_neg (fun h' => h ((normd_ne ha hb hi hj hij).1 h'.symm)), normd_instant,
      normd_instant]

theorem eq_normd {e : Env} {i j k : Nat} {a b : DT} (ha : a.Fresh k) (hb : b.Fresh k) (hi : k ≤ i)
    (hj : k ≤ j) (hij : i ≠ j) : e.eq (e.normd i a) (e.normd j b) = e.neq a b := by
  by_cases h : a.tz = b.tz ∧ a.tz ≠ none
  · rw [e.eq_sameTz ((normd_ne ha hb hi hj hij).2 h)]
    unfold Env.neq
    rw [if_pos h]
    rcases a with ⟨w1, f1, _ | t1⟩
    · simp at h
    · rcases b with ⟨w2, f2, _ | t2⟩
      · simp at h
      · rfl
  · have h2 := fun x => h ((normd_ne (e := e) ha hb hi hj hij).1 x)
    unfold Env.neq Env.eq
    rw [if_neg h, if_neg h2]
    have key : ∀ (k : Nat) (d : DT), ∃ t w f, e.normd k d = ⟨w, f, some t⟩ ∧
        e.instant (e.localize d) = w - e.tzOff t w f ∧
        e.clear d = decide (e.tzOff t w f = e.tzOff t w (!f)) := by
      intro k d
      rcases d with ⟨w, f, _ | t⟩
      · exact ⟨_, _, _, rfl, rfl, rfl⟩
      · exact ⟨_, _, _, rfl, rfl, rfl⟩
    obtain ⟨t1, w1, f1, h3, h4, h5⟩ := key i a
    obtain ⟨t2, w2, f2, h6, h7, h8⟩ := key j b
    rw [h3, h6, h4, h7, h5, h8]
    dsimp only
    by_cases c1 : e.tzOff t1 w1 f1 = e.tzOff t1 w1 (!f1)
    · by_cases c2 : e.tzOff t2 w2 f2 = e.tzOff t2 w2 (!f2)
      · simp [← c1, ← c2]
      · simp [← c1, c2]
    · simp [c1]

/-! ### tuples -/

/-- The two times of the comparison tuple, before normalization. -/
def Env.keyOf (e : Env) (s : Span) : Except PyErr (DT × DT) :=
  match e.effEnd s with
  | .error x => .error x
  | .ok en =>
    .ok (if s.cls = .todo then (en.getD cmpDefault, s.begin?.getD cmpDefault)
      else (s.begin?.getD cmpDefault, en.getD cmpDefault))

theorem effEnd_fresh {e : Env} {k : Nat} {s : Span} {en : DT} (h : s.Fresh k)
    (he : e.effEnd s = .ok (some en)) : en.Fresh k := by
  unfold Env.effEnd at he
  split at he
  · rename_i x hx
    injection he with he; injection he with he; subst he
    exact h.2 _ hx
  · split at he
    · cases he
    · rename_i b hb
      split at he
      · cases he
      · cases he
      · split at he
        · rename_i y hy
          injection he with he; injection he with he; subst he
          obtain ⟨-, -, rfl⟩ := add_ok.1 hy
          exact fun i hi => h.1 _ hb i hi
        · cases he

theorem cmpDefault_fresh (k : Nat) : cmpDefault.Fresh k := by
  intro i h; cases h

theorem keyOf_fresh {e : Env} {k : Nat} {s : Span} {x y : DT} (h : s.Fresh k)
    (hk : e.keyOf s = .ok (x, y)) : x.Fresh k ∧ y.Fresh k := by
  unfold Env.keyOf at hk
  split at hk
  · cases hk
  · rename_i en hen
    have h1 : (en.getD cmpDefault).Fresh k := by
      cases en with
      | none => exact cmpDefault_fresh k
      | some en => exact effEnd_fresh h hen
    have h2 : (s.begin?.getD cmpDefault).Fresh k := by
      cases hb : s.begin? with
      | none => exact cmpDefault_fresh k
      | some b => exact h.1 _ hb
    injection hk with hk
    split at hk <;> (injection hk with hx hy; subst hx; subst hy)
    · exact ⟨h1, h2⟩
    · exact ⟨h2, h1⟩

theorem or_some_getD (o : Option DT) (d : DT) : o.or (some d) = some (o.getD d) := by
  cases o <;> rfl

theorem cmpTuple_ok {e : Env} {k : Nat} {s : Span} {p : Option DT × Option DT} :
    e.cmpTuple k s = .ok p ↔ ∃ x y, e.keyOf s = .ok (x, y) ∧ e.Convertible x ∧ e.Convertible y ∧
      ∃ i j, k ≤ i ∧ i < k + 2 ∧ k ≤ j ∧ j < k + 2 ∧ i = (if s.cls = .todo then k + 1 else k) ∧
        j = (if s.cls = .todo then k else k + 1) ∧
      p = (some (e.normd i x), some (e.normd j y)) := by
  unfold Env.cmpTuple Env.spanTuple Env.keyOf
  rw [or_some_getD]
  constructor
  · intro h
    obtain ⟨b, h1, h⟩ := bind_ok_iff.1 h
    obtain ⟨en, h2, h⟩ := bind_ok_iff.1 h
    rw [or_some_getD] at h
    obtain ⟨en', h3, h⟩ := bind_ok_iff.1 h
    obtain ⟨h4, rfl⟩ := normalizeOpt_some.1 h1
    obtain ⟨h5, rfl⟩ := normalizeOpt_some.1 h3
    rw [h2]
    dsimp only
    injection h with h
    by_cases hc : s.cls = .todo
    · rw [if_pos hc] at h ⊢
      exact ⟨_, _, rfl, h5, h4, k + 1, k, by omega, by omega, by omega, by omega, by simp [hc], by simp [hc], h.symm⟩
    · rw [if_neg hc] at h ⊢
      exact ⟨_, _, rfl, h4, h5, k, k + 1, by omega, by omega, by omega, by omega, by simp [hc], by simp [hc], h.symm⟩
  · rintro ⟨x, y, h, hx, hy, i, j, -, -, -, -, hi, hj, rfl⟩
    split at h
    · cases h
    · rename_i en hen
      injection h with h
      rw [hen]
      by_cases hc : s.cls = .todo
      · rw [if_pos hc] at h hi hj
        injection h with h1 h2; subst h1; subst h2; subst hi; subst hj
        refine bind_ok_iff.2 ⟨_, normalizeOpt_some.2 ⟨hy, rfl⟩, bind_ok_iff.2 ⟨_, rfl, ?_⟩⟩
        rw [or_some_getD]
        refine bind_ok_iff.2 ⟨_, normalizeOpt_some.2 ⟨hx, rfl⟩, ?_⟩
        rw [if_pos hc]
      · rw [if_neg hc] at h hi hj
        injection h with h1 h2; subst h1; subst h2; subst hi; subst hj
        refine bind_ok_iff.2 ⟨_, normalizeOpt_some.2 ⟨hx, rfl⟩, bind_ok_iff.2 ⟨_, rfl, ?_⟩⟩
        rw [or_some_getD]
        refine bind_ok_iff.2 ⟨_, normalizeOpt_some.2 ⟨hy, rfl⟩, ?_⟩
        rw [if_neg hc]

/-- The outcome of an operator on tuples, in terms of the differences. -/
def Env.nop (e : Env) (op : Int → Bool) (rest : Bool) (a b : DT × DT) : Bool :=
  if e.neq a.1 b.1 then if e.neq a.2 b.2 then rest else op (e.nsub a.2 b.2)
  else op (e.nsub a.1 b.1)

/-- The tuples of a span can be computed. -/
def Env.Comparable (e : Env) (s : Span) (p : DT × DT) : Prop :=
  e.keyOf s = .ok p ∧ e.Convertible p.1 ∧ e.Convertible p.2

theorem tupleOp_eq {e : Env} {k : Nat} {a b : Span} {p q : DT × DT} {x y : Option DT × Option DT}
    {op : DT → DT → Except PyErr Bool} {f : Int → Bool} {rest : Bool}
    (hop : ∀ a b, op a b = (e.cmp a b).map f)
    (ha : a.Fresh k) (hb : b.Fresh k)
    (hp : e.Comparable a p) (hq : e.Comparable b q)
    (hx : e.cmpTuple k a = .ok x) (hy : e.cmpTuple (k + 2) b = .ok y) :
    e.tupleOp op (.ok rest) x y = .ok (e.nop f rest p q) := by
  obtain ⟨x1, x2, h1, h2, h3, i1, j1, h4, h5, h6, h7, -, -, rfl⟩ := cmpTuple_ok.1 hx
  obtain ⟨y1, y2, g1, g2, g3, i2, j2, g4, g5, g6, g7, -, -, rfl⟩ := cmpTuple_ok.1 hy
  rw [hp.1] at h1; injection h1 with h1; subst h1
  rw [hq.1] at g1; injection g1 with g1; subst g1
  obtain ⟨f1, f2⟩ := keyOf_fresh ha hp.1
  obtain ⟨f3, f4⟩ := keyOf_fresh hb hq.1
  unfold Env.nop
  show (if e.eq (e.normd i1 x1) (e.normd i2 y1) = true then
      if e.eq (e.normd j1 x2) (e.normd j2 y2) = true then Except.ok rest
      else op (e.normd j1 x2) (e.normd j2 y2)
    else op (e.normd i1 x1) (e.normd i2 y1)) = _
  rw [eq_normd f1 f3 (by omega) (by omega) (by omega), eq_normd f2 f4 (by omega) (by omega) (by omega),
    hop, hop]
  unfold Env.cmp
  rw [sub_normd f1 f3 (by omega) (by omega) (by omega), sub_normd f2 f4 (by omega) (by omega) (by omega)]
  simp only [Except.map]
  split
  · split <;> rfl
  · rfl

theorem comparable_tuple {e : Env} {s : Span} {p : DT × DT} (h : e.Comparable s p) (k : Nat) :
    ∃ x, e.cmpTuple k s = .ok x := by
  refine ⟨_, cmpTuple_ok.2 ⟨p.1, p.2, h.1, h.2.1, h.2.2,
    (if s.cls = .todo then k + 1 else k), (if s.cls = .todo then k else k + 1), ?_, ?_, ?_, ?_, rfl, rfl, rfl⟩⟩
  all_goals split <;> omega

theorem tuple_comparable {e : Env} {s : Span} {k : Nat} {x : Option DT × Option DT}
    (h : e.cmpTuple k s = .ok x) : ∃ p, e.Comparable s p := by
  obtain ⟨x1, x2, h1, h2, h3, -⟩ := cmpTuple_ok.1 h
  exact ⟨(x1, x2), h1, h2, h3⟩

theorem spanLt_eq {e : Env} {k : Nat} {a b : Span} {p q : DT × DT} (ha : a.Fresh k) (hb : b.Fresh k)
    (hp : e.Comparable a p) (hq : e.Comparable b q) :
    e.spanLt k a b = .ok (e.nop (fun x => decide (x < 0)) false p q) := by
  obtain ⟨x, hx⟩ := comparable_tuple hp k
  obtain ⟨y, hy⟩ := comparable_tuple hq (k + 2)
  exact bind_ok_iff.2 ⟨x, hx, bind_ok_iff.2 ⟨y, hy, tupleOp_eq (fun _ _ => rfl) ha hb hp hq hx hy⟩⟩

theorem spanGt_eq {e : Env} {k : Nat} {a b : Span} {p q : DT × DT} (ha : a.Fresh k) (hb : b.Fresh k)
    (hp : e.Comparable a p) (hq : e.Comparable b q) :
    e.spanGt k a b = .ok (e.nop (fun x => decide (0 < x)) false p q) := by
  obtain ⟨x, hx⟩ := comparable_tuple hp k
  obtain ⟨y, hy⟩ := comparable_tuple hq (k + 2)
  exact bind_ok_iff.2 ⟨x, hx, bind_ok_iff.2 ⟨y, hy, tupleOp_eq (fun _ _ => rfl) ha hb hp hq hx hy⟩⟩

theorem spanLe_eq {e : Env} {k : Nat} {a b : Span} {p q : DT × DT} (ha : a.Fresh k) (hb : b.Fresh k)
    (hp : e.Comparable a p) (hq : e.Comparable b q) :
    e.spanLe k a b = .ok (e.nop (fun x => decide (x ≤ 0)) true p q) := by
  obtain ⟨x, hx⟩ := comparable_tuple hp k
  obtain ⟨y, hy⟩ := comparable_tuple hq (k + 2)
  exact bind_ok_iff.2 ⟨x, hx, bind_ok_iff.2 ⟨y, hy, tupleOp_eq (fun _ _ => rfl) ha hb hp hq hx hy⟩⟩

theorem spanGe_eq {e : Env} {k : Nat} {a b : Span} {p q : DT × DT} (ha : a.Fresh k) (hb : b.Fresh k)
    (hp : e.Comparable a p) (hq : e.Comparable b q) :
    e.spanGe k a b = .ok (e.nop (fun x => decide (0 ≤ x)) true p q) := by
  obtain ⟨x, hx⟩ := comparable_tuple hp k
  obtain ⟨y, hy⟩ := comparable_tuple hq (k + 2)
  exact bind_ok_iff.2 ⟨x, hx, bind_ok_iff.2 ⟨y, hy, tupleOp_eq (fun _ _ => rfl) ha hb hp hq hx hy⟩⟩

theorem entryOp_eq {e : Env} {k : Nat} {a b : Entry} {p q : DT × DT}
    {op : DT → DT → Except PyErr Bool} {f : Int → Bool} {sop : Str → Str → Bool} {rest : Bool}
    (hop : ∀ a b, op a b = (e.cmp a b).map f)
    (ha : a.timespan.Fresh k) (hb : b.timespan.Fresh k)
    (hp : e.Comparable a.timespan p) (hq : e.Comparable b.timespan q) :
    e.entryOp op sop rest k a b =
      .ok (e.nop f (if a.sumKey = b.sumKey then rest else sop a.sumKey b.sumKey) p q) := by
  obtain ⟨x, hx⟩ := comparable_tuple hp k
  obtain ⟨y, hy⟩ := comparable_tuple hq (k + 2)
  exact bind_ok_iff.2 ⟨x, hx, bind_ok_iff.2 ⟨y, hy, tupleOp_eq hop ha hb hp hq hx hy⟩⟩

/-- Exchanging the operands and negating the operator. -/
theorem nop_swap (e : Env) {f g : Int → Bool} {r : Bool} (p q : DT × DT) (h : ∀ x, g x = f (-x)) :
    e.nop g r p q = e.nop f r q p := by
  unfold Env.nop
  rw [neq_symm e p.1 q.1, neq_symm e p.2 q.2, nsub_anti e q.1 p.1, nsub_anti e q.2 p.2, h, h]
  simp

theorem nop_not (e : Env) {f g : Int → Bool} {r : Bool} (p q : DT × DT) (h : ∀ x, g x = !f x) :
    e.nop g (!r) p q = !e.nop f r p q := by
  unfold Env.nop
  rw [h, h]
  repeat' split
  all_goals rfl

theorem strLt_irrefl (s : Str) : strLt s s = false := by
  induction s with
  | nil => rfl
  | cons c s ih => simp [strLt, ih]

theorem strLt_asymm {s t : Str} (h : strLt s t = true) : strLt t s = false := by
  induction s generalizing t with
  | nil => cases t <;> simp_all [strLt]
  | cons c s ih =>
    cases t with
    | nil => simp [strLt] at h
    | cons d t =>
      simp [strLt] at h ⊢
      rcases h with h | ⟨h1, h2⟩
      · exact ⟨by omega, by omega⟩
      · exact ⟨by omega, fun _ => ih h2⟩

theorem strLt_trans {s t u : Str} (h : strLt s t = true) (h' : strLt t u = true) :
    strLt s u = true := by
  induction s generalizing t u with
  | nil =>
    cases u with
    | nil => cases t <;> simp [strLt] at h h'
    | cons => rfl
  | cons c s ih =>
    cases t with
    | nil => simp [strLt] at h
    | cons d t =>
      cases u with
      | nil => simp [strLt] at h'
      | cons x u =>
        simp [strLt] at h h' ⊢
        rcases h with h | ⟨h1, h2⟩
        · rcases h' with h' | ⟨h3, h4⟩
          · left; omega
          · left; omega
        · rcases h' with h' | ⟨h3, h4⟩
          · left; omega
          · right; exact ⟨by omega, ih h2 h4⟩

theorem strLt_total {s t : Str} (h : strLt s t = false) (h' : strLt t s = false) : s = t := by
  induction s generalizing t with
  | nil => cases t <;> simp_all [strLt]
  | cons c s ih =>
    cases t with
    | nil => simp [strLt] at h'
    | cons d t =>
      simp [strLt] at h h'
      have hc : c.toNat = d.toNat := by omega
      have : c = d := Char.toNat_inj.1 hc
      rw [this, ih (h.2 hc) (h'.2 hc.symm)]

end Ics
