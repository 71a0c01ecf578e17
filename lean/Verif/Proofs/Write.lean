import Verif.Proofs.Faults
import Verif.Props.Generic
import Verif.Proofs.Tree
import Verif.Spec.Write

/-
Which exceptions writing a calendar raises.
-/
namespace Ics

/-- Whatever is raised satisfies `F`, and a result satisfies `Q`. -/
def Writes {α : Type} (F : PyErr → Prop) (Q : α → Prop) (x : Except PyErr α) : Prop :=
  Raises F x ∧ ∀ a, x = .ok a → Q a

namespace Writes

variable {α β : Type} {F G : PyErr → Prop} {Q Q' : α → Prop}

theorem ok {a : α} (h : Q a) : Writes F Q (.ok a) := ⟨.ok _, fun b hb => by injection hb with hb; exact hb ▸ h⟩

theorem error {e : PyErr} (h : F e) : Writes F Q (.error e : Except PyErr α) := ⟨.error h, fun b hb => by cases hb⟩

theorem bind {x : Except PyErr α} {f : α → Except PyErr β} {R : β → Prop} (h : Writes F Q x)
    (hf : ∀ a, x = .ok a → Q a → Writes F R (f a)) : Writes F R (x >>= f) := by
  refine ⟨h.1.bind fun a ha => (hf a ha (h.2 a ha)).1, fun b hb => ?_⟩
  obtain ⟨a, ha, hb⟩ := bind_ok_iff.1 hb
  exact (hf a ha (h.2 a ha)).2 b hb

theorem mono {x : Except PyErr α} (h : Writes F Q x) (hf : ∀ e, F e → G e) (hq : ∀ a, Q a → Q' a) : Writes G Q' x :=
  ⟨h.1.mono hf, fun a ha => hq a (h.2 a ha)⟩

theorem ite {p : Prop} [Decidable p] {a b : Except PyErr α} (ha : p → Writes F Q a) (hb : ¬ p → Writes F Q b) :
    Writes F Q (if p then a else b) := by
  by_cases h : p
  · rw [if_pos h]; exact ha h
  · rw [if_neg h]; exact hb h

end Writes

theorem raiseIf_writes {F : PyErr → Prop} {b : Bool} (h : b = true → F .valueError) :
    Writes F (fun _ => b = false) (raiseIf b) := by
  cases b with
  | true => exact .error (h rfl)
  | false => exact .ok rfl

variable {σ : Type}

/-! ### The tables -/

/-- The kinds of values of a converter. -/
def convKinds : ValConv → List ValKind
  | .text => [.text]
  | .uri => [.url]
  | .binary => [.bytes]
  | .datetime => [.time]
  | .duration => [.duration]
  | .integer => [.int, .bool]
  | .boolean => [.bool]
  | .geo => [.geo]
  | .organizer => [.organizer]
  | .attendee => [.attendee]

theorem accepts_iff (c : ValConv) (v : Val σ) : c.accepts v = true ↔ ∃ k ∈ convKinds c, OfKind k v := by
  constructor
  · intro h
    cases c <;> cases v <;> first
      | exact (Bool.false_ne_true h).elim
      | exact ⟨_, List.mem_singleton.2 rfl, .text⟩
      | exact ⟨_, List.mem_singleton.2 rfl, .url⟩
      | exact ⟨_, List.mem_singleton.2 rfl, .bytes⟩
      | exact ⟨_, List.mem_singleton.2 rfl, .time⟩
      | exact ⟨_, List.mem_singleton.2 rfl, .duration⟩
      | exact ⟨_, List.mem_singleton.2 rfl, .bool⟩
      | exact ⟨_, List.mem_singleton.2 rfl, .geo⟩
      | exact ⟨_, List.mem_cons_self, .int⟩
      | exact ⟨_, List.mem_cons_of_mem _ (List.mem_singleton.2 rfl), .bool⟩
      | (rename_i att _ _
         cases att with
         | true => first
            | exact ⟨_, List.mem_singleton.2 rfl, .attendee⟩
            | exact (Bool.false_ne_true h).elim
         | false => first
            | exact ⟨_, List.mem_singleton.2 rfl, .organizer⟩
            | exact (Bool.false_ne_true h).elim)
  · rintro ⟨k, hk, hv⟩
    cases c <;> simp only [convKinds, List.mem_cons, List.not_mem_nil, or_false] at hk
    all_goals first
      | (rcases hk with rfl | rfl <;> cases hv <;> rfl)
      | (subst hk; cases hv; rfl)

/-- The row of an attribute with one value. -/
def inOne (c : Cls) (s : AttrSpec) : Bool :=
  (loneAttrs c).any fun p => p.1.toList == s.attr && p.2 == s.convs.flatMap convKinds

/-- The row of an attribute that is a list. -/
def inList (c : Cls) (s : AttrSpec) : Bool :=
  (listAttrKinds c).any fun p => p.1.toList == s.attr && p.2 == s.convs.flatMap convKinds

/-- Each converter has its row. -/
def inTables (c : Cls) : Conv → Bool
  | .value s => if s.multi then inList c s else inOne c s
  | .member a _ => (memberLists c).any fun b => b.toList == a
  | .timespan => c == .event || c == .todo
  | .alarmAction => !([Cls.calendar, .event, .todo].contains c)
  | .calendarTimezone => c == .calendar

theorem tables (c : Cls) : c.convs.all (inTables c) = true := by cases c <;> decide +kernel

theorem oneRow {c : Cls} {s : AttrSpec} (h : .value s ∈ c.convs) (hm : s.multi = false) :
    ∃ a ks, (a, ks) ∈ loneAttrs c ∧ a.toList = s.attr ∧ ks = s.convs.flatMap convKinds := by
  have := List.all_eq_true.1 (tables c) _ h
  unfold inTables at this
  dsimp only at this
  rw [hm] at this
  obtain ⟨p, hp, h2⟩ := List.any_eq_true.1 this
  rw [Bool.and_eq_true, beq_iff_eq, beq_iff_eq] at h2
  exact ⟨p.1, p.2, hp, h2.1, h2.2⟩

theorem listRow {c : Cls} {s : AttrSpec} (h : .value s ∈ c.convs) (hm : s.multi = true) :
    ∃ a ks, (a, ks) ∈ listAttrKinds c ∧ a.toList = s.attr ∧ ks = s.convs.flatMap convKinds := by
  have := List.all_eq_true.1 (tables c) _ h
  unfold inTables at this
  dsimp only at this
  rw [hm] at this
  obtain ⟨p, hp, h2⟩ := List.any_eq_true.1 this
  rw [Bool.and_eq_true, beq_iff_eq, beq_iff_eq] at h2
  exact ⟨p.1, p.2, hp, h2.1, h2.2⟩

theorem memberRow {c : Cls} {a ics : Str} (h : .member a ics ∈ c.convs) : ∃ b ∈ memberLists c, b.toList = a := by
  have := List.all_eq_true.1 (tables c) _ h
  obtain ⟨b, hb, h2⟩ := List.any_eq_true.1 this
  exact ⟨b, hb, beq_iff_eq.1 h2⟩

theorem timespan_cls {c : Cls} (h : .timespan ∈ c.convs) : c = .event ∨ c = .todo := by
  have := List.all_eq_true.1 (tables c) _ h
  simpa [inTables] using this

theorem action_alarm {c : Cls} (h : .alarmAction ∈ c.convs) : c ∉ [Cls.calendar, .event, .todo] := by
  have := List.all_eq_true.1 (tables c) _ h
  simpa [inTables] using this

theorem convs_distinct (c : Cls) : c.convs.Nodup := by cases c <;> decide +kernel

/-! ### Values -/

/-- The zones noted so far are allowed. -/
def ReadyCtx (Z : Nat → Prop) (ctx : Ctx) : Prop := ∃ d, ctx = some d ∧ ∀ kv ∈ d, Z kv.2

theorem mem_dictSetDefault {κ ν : Type} [DecidableEq κ] {d : List (κ × ν)} {k : κ} {v : ν} {kv : κ × ν}
    (h : kv ∈ dictSetDefault d k v) : kv ∈ d ∨ kv = (k, v) := by
  unfold dictSetDefault at h
  split at h
  · exact .inl h
  · exact (mem_dictSet h).symm

/-- The zone of a time can be written, or there is a reason; and it is allowed. -/
structure TimeFine (L : Lib) (F : PyErr → Prop) (Z : Nat → Prop) (d : DT) : Prop where
  name : ∀ t, L.dtIsUtc d = false → d.tz = some t → L.conv t = .unserializable → F .valueError
  zone : ∀ t z, L.dtIsUtc d = false → d.tz = some t → L.conv t = .timezone z → Z z

theorem serializeDt_writes {L : Lib} {F : PyErr → Prop} {Z : Nat → Prop} {d : DT} (h : TimeFine L F Z d) (p : Params)
    {ctx : Ctx} (hc : ReadyCtx Z ctx) : Writes F (fun r => ReadyCtx Z r.2.2) (serializeDt L.toWorld d p ctx) := by
  obtain ⟨av, rfl, hav⟩ := hc
  unfold serializeDt
  refine .ite (fun _ => .ok ⟨av, rfl, hav⟩) fun hu => ?_
  have hu' : L.dtIsUtc d = false := Bool.eq_false_iff.2 hu
  cases ht : d.tz with
  | none => exact .ok ⟨av, rfl, hav⟩
  | some t =>
    dsimp only
    cases hcv : L.conv t with
    | unserializable => exact .error (h.name t hu' ht hcv)
    | localTime => exact .ok ⟨av, rfl, hav⟩
    | timezone z =>
      refine .ok ⟨_, rfl, fun kv hkv => ?_⟩
      rcases mem_dictSetDefault hkv with hkv | rfl
      · exact hav kv hkv
      · exact h.zone t z hu' ht hcv

theorem serialize_writes {L : Lib} {F : PyErr → Prop} {Z : Nat → Prop} {c : ValConv} {v : Val σ} (hv : c.accepts v = true)
    (hd : ∀ d, v = .dt d → TimeFine L F Z d) (hn : ∀ n, v = .int n → 10 ^ 4300 ≤ n.natAbs → F .valueError) (p : Params)
    {ctx : Ctx} (hc : ReadyCtx Z ctx) : Writes F (fun r => ReadyCtx Z r.2.2) (c.serialize L v p ctx) := by
  cases c <;> cases v <;> first
    | exact (Bool.false_ne_true hv).elim
    | exact .ok hc
    | exact serializeDt_writes (hd _ rfl) p hc
    | skip
  rename_i n
  show Writes F _ ((intSerialize n).map fun s => (s, p, ctx))
  by_cases hb : 10 ^ 4300 ≤ n.natAbs
  · rw [C18_int_limit n hb]
    exact .error (hn n rfl hb)
  · cases hs : intSerialize n with
    | ok s => exact .ok hc
    | error e =>
      exfalso
      unfold intSerialize at hs
      dsimp only at hs
      rw [if_neg (by
        have := natStr_length (k := 4300) (by decide) (Nat.lt_of_not_le hb)
        rw [maxStrDigits]
        omega)] at hs
      cases hs

theorem findConverter_writes {F : PyErr → Prop} {convs : List ValConv} {v : Val σ}
    (h : ∃ k ∈ convs.flatMap convKinds, OfKind k v) (p : Params) :
    Writes F (fun r => r.1 ∈ convs ∧ r.1.accepts v = true) (findConverter convs p v) := by
  obtain ⟨k, hk, hv⟩ := h
  obtain ⟨c, hc, hk⟩ := List.mem_flatMap.1 hk
  have ha : c.accepts v = true := (accepts_iff c v).2 ⟨k, hk, hv⟩
  unfold findConverter
  cases hf : convs.find? fun c => c.accepts v with
  | none => exact absurd ha (List.find?_eq_none.1 hf c hc)
  | some c' =>
    have h1 := List.mem_of_find?_eq_some hf
    have h2 := List.find?_some hf
    dsimp only
    exact .ite (fun _ => .ok ⟨h1, h2⟩) fun _ => .ok ⟨h1, h2⟩

/-! ### Attributes -/

/-- What holds before and after. -/
def ReadyState (Z : Nat → Prop) (b : Bool) (st : DState) : Prop := ReadyCtx Z st.ctx ∧ st.dtstart = b

theorem extraParamsOf_writes {F : PyErr → Prop} {o : Obj σ} {name : Str}
    (h : ∀ p ps, dictGet? o.extraParams (upper name) = some (.many (p :: ps)) → F .attributeError) :
    Writes F (fun _ => True) (o.extraParamsOf name) := by
  unfold Obj.extraParamsOf extraKey
  generalize dictGet? o.extraParams (upper name) = x at h
  match x with
  | none => exact .ok trivial
  | some (.one p) => exact .ok trivial
  | some (.many []) => exact .ok trivial
  | some (.many (p :: ps)) => exact .error (h p ps rfl)

theorem dumpSingle_writes {L : Lib} {F : PyErr → Prop} {Z : Nat → Prop} {o : Obj σ} {s : AttrSpec}
    (ht : o.get s.attr = .none ∨ ∃ v, o.get s.attr = .one v ∧ ∃ k ∈ s.convs.flatMap convKinds, OfKind k v)
    (hp : ∀ v p ps, o.get s.attr = .one v → dictGet? o.extraParams (upper s.attr) = some (.many (p :: ps)) → F .attributeError)
    (hd : ∀ d, o.get s.attr = .one (.dt d) → TimeFine L F Z d)
    (hn : ∀ n, o.get s.attr = .one (.int n) → 10 ^ 4300 ≤ n.natAbs → F .valueError)
    {b : Bool} {st : DState} (hst : ReadyState Z b st) :
    Writes F (fun r => ReadyState Z b r.2) (dumpSingle L s o st) := by
  unfold dumpSingle
  rcases ht with ht | ⟨v, ht, hk⟩
  · rw [ht]; exact .ok hst
  · rw [ht] at hp hd hn ⊢
    dsimp only
    refine (extraParamsOf_writes fun p ps => hp v p ps rfl).bind fun p _ _ => ?_
    refine (findConverter_writes hk p).bind fun ⟨c, p⟩ _ hc => ?_
    refine (serialize_writes (Z := Z) hc.2 (fun d e => hd d (by rw [e])) (fun n e => hn n (by rw [e])) p hst.1).bind
      fun ⟨t, p, ctx⟩ _ hctx => ?_
    exact .ok ⟨hctx, hst.2⟩

/-- The types of values in the lists. -/
def listConvs : List (List ValConv) := [[.text], [.uri, .binary], [.attendee]]

theorem listConvs_fine (c : Cls) : c.convs.all (fun cv => match cv with
    | .value s => !s.multi || listConvs.contains s.convs
    | _ => true) = true := by
  cases c <;> decide

theorem listConvs_of {c : Cls} {s : AttrSpec} (h : .value s ∈ c.convs) (hm : s.multi = true) : s.convs ∈ listConvs := by
  have := List.all_eq_true.1 (listConvs_fine c) _ h
  dsimp only at this
  rw [hm] at this
  exact List.contains_iff_mem.1 this

theorem paramsEq_iff (p q : Params) : paramsEq p q = true ↔ SameDict p q := by
  unfold paramsEq SameDict
  rw [Bool.and_eq_true, beq_iff_eq, List.all_eq_true]
  refine and_congr_right fun _ => forall₂_congr fun x _ => ?_
  rw [beq_iff_eq]
  cases dictGet? q x.1 with
  | none => exact ⟨nofun, nofun⟩
  | some l =>
    constructor
    · exact fun h => ⟨l, rfl, Option.some.inj h⟩
    · rintro ⟨_, h, h2⟩
      cases h
      exact congrArg some h2

theorem mergeNext_iff (p : Params) : mergeNext p = true ↔ Marked p := by
  unfold mergeNext Marked mergeKey
  rw [decide_eq_true_iff]
  cases dictGet? p "__merge_next".toList with
  | none => exact ⟨nofun, nofun⟩
  | some l =>
    constructor
    · exact fun h => ⟨l, rfl, Option.some.inj h⟩
    · rintro ⟨_, h, h2⟩
      cases h
      exact congrArg some h2

/-- How a value of a list is written. -/
theorem list_value {L : Lib} {s : AttrSpec} (hs : s.convs ∈ listConvs) {v : Val σ}
    (hv : ∃ k ∈ s.convs.flatMap convKinds, OfKind k v) (p : Params) :
    ∃ c q t, findConverter s.convs (dictErase p mergeKey) v = .ok (c, q) ∧
      ∀ ctx, c.serialize L v q ctx = .ok (t, lineParams v p, ctx) := by
  obtain ⟨k, hk, hkv⟩ := hv
  simp only [listConvs, List.mem_cons, List.not_mem_nil, or_false] at hs
  rcases hs with hs | hs | hs <;> rw [hs] at hk ⊢
  · obtain rfl : k = .text := by simpa [convKinds] using hk
    cases hkv
    exact ⟨_, _, _, rfl, fun _ => rfl⟩
  · have : k = .url ∨ k = .bytes := by simpa [convKinds] using hk
    rcases this with rfl | rfl <;> cases hkv
    · exact ⟨_, _, _, rfl, fun _ => rfl⟩
    · exact ⟨_, _, _, rfl, fun _ => rfl⟩
  · obtain rfl : k = .attendee := by simpa [convKinds] using hk
    cases hkv
    exact ⟨_, _, _, rfl, fun _ => rfl⟩

/-- When the loop over the values of a list stops with an error: `cur` are the parameters of the line that has begun. -/
def Stuck : Option Params → List (Val σ × Params) → Prop
  | cur, [] => cur ≠ none
  | cur, (v, p) :: l => (∃ c, cur = some c ∧ ¬ SameDict c (lineParams v p)) ∨
      (Marked p ∧ Stuck (some (cur.getD (lineParams v p))) l) ∨ (¬ Marked p ∧ Stuck none l)

theorem loop_stuck {L : Lib} {s : AttrSpec} (hs : s.convs ∈ listConvs) (l : List (Val σ × Params)) :
    ∀ (cur : Option Params) (texts : List Str) (st : DState), (∀ vp ∈ l, ∃ k ∈ s.convs.flatMap convKinds, OfKind k vp.1) →
    (Stuck cur l ∧ dumpMultiLoop L s l cur texts st = .error .valueError) ∨
      (¬ Stuck cur l ∧ ∃ is, dumpMultiLoop L s l cur texts st = .ok (is, st)) := by
  induction l with
  | nil =>
    intro cur texts st _
    cases cur with
    | none => exact .inr ⟨fun h => h rfl, [], rfl⟩
    | some c => exact .inl ⟨nofun, rfl⟩
  | cons vp l ih =>
    obtain ⟨v, p⟩ := vp
    intro cur texts st hl
    obtain ⟨c, q, t, h1, h2⟩ := list_value (L := L) hs (hl _ List.mem_cons_self) p
    have ih := fun cur texts => ih cur texts st fun vp h => hl vp (List.mem_cons_of_mem _ h)
    have step : dumpMultiLoop L s ((v, p) :: l) cur texts st = (do
        checkSame cur (lineParams v p)
        if mergeNext p then dumpMultiLoop L s l (some (cur.getD (lineParams v p))) (texts ++ [t]) st
        else do
          let (is, st) ← dumpMultiLoop L s l none [] st
          .ok (.line (mkContentLine s.ics (lineParams v p) (joinComma (texts ++ [t]))) :: is, st)) := by
      rw [dumpMultiLoop]
      dsimp only at h1
      simp only [h1, h2, bind, Except.bind]
    rw [step]
    by_cases hc : ∃ c, cur = some c ∧ ¬ SameDict c (lineParams v p)
    · left
      refine ⟨.inl hc, ?_⟩
      obtain ⟨c, rfl, hc⟩ := hc
      have : paramsEq c (lineParams v p) = false := Bool.eq_false_iff.2 fun h => hc ((paramsEq_iff _ _).1 h)
      simp only [checkSame, this, raiseIf, bind, Except.bind, Bool.not_false, if_true]
    · have hok : checkSame cur (lineParams v p) = .ok () := by
        cases cur with
        | none => rfl
        | some c =>
          have : paramsEq c (lineParams v p) = true :=
            (paramsEq_iff _ _).2 (Classical.not_not.1 fun h => hc ⟨c, rfl, h⟩)
          simp [checkSame, this, raiseIf]
      rw [hok]
      by_cases hm : Marked p
      · have e : mergeNext p = true := (mergeNext_iff p).2 hm
        simp only [bind, Except.bind, e, if_true]
        rcases ih (some (cur.getD (lineParams v p))) (texts ++ [t]) with ⟨h1, h2⟩ | ⟨h1, h2⟩
        · exact .inl ⟨.inr (.inl ⟨hm, h1⟩), h2⟩
        · refine .inr ⟨?_, h2⟩
          rintro (h | ⟨-, h⟩ | ⟨h, -⟩)
          · exact hc h
          · exact h1 h
          · exact h hm
      · have e : mergeNext p = false := Bool.eq_false_iff.2 fun h => hm ((mergeNext_iff p).1 h)
        simp only [bind, Except.bind, e, Bool.false_eq_true, if_false]
        rcases ih none [] with ⟨h1, h2⟩ | ⟨h1, is, h2⟩
        · exact .inl ⟨.inr (.inr ⟨hm, h1⟩), by rw [h2]⟩
        · refine .inr ⟨?_, _, by rw [h2]⟩
          rintro (h | ⟨h, -⟩ | ⟨-, h⟩)
          · exact hc h
          · exact hm h
          · exact h1 h

/-- The rest of a line that has begun, and the lines after it. -/
def RestOnLines (c : Params) (l : List (Val σ × Params)) : Prop :=
  ∃ init last rest, l = init ++ last :: rest ∧ (∀ x ∈ init, Marked x.2) ∧ ¬ Marked last.2 ∧
    (∀ x ∈ init ++ [last], SameDict c (lineParams x.1 x.2)) ∧ OnLines rest

theorem onLines_nil : OnLines ([] : List (Val σ × Params)) := ⟨[], rfl, fun _ h => absurd h List.not_mem_nil⟩

theorem onLines_cons {v : Val σ} {p : Params} {l : List (Val σ × Params)} :
    OnLines ((v, p) :: l) ↔ (Marked p ∧ RestOnLines (lineParams v p) l) ∨ (¬ Marked p ∧ OnLines l) := by
  constructor
  · rintro ⟨gs, h, hg⟩
    cases gs with
    | nil => cases h
    | cons g gs =>
      obtain ⟨init, last, rfl, h1, h2, h3⟩ := hg g List.mem_cons_self
      have hr : OnLines gs.flatten := ⟨gs, rfl, fun g h => hg g (List.mem_cons_of_mem _ h)⟩
      cases init with
      | nil =>
        simp only [List.nil_append, List.flatten_cons, List.cons_append, List.cons.injEq] at h
        obtain ⟨rfl, rfl⟩ := h
        exact .inr ⟨h2, hr⟩
      | cons x init =>
        simp only [List.flatten_cons, List.cons_append, List.append_assoc, List.nil_append, List.cons.injEq] at h
        obtain ⟨rfl, rfl⟩ := h
        exact .inl ⟨h1 _ List.mem_cons_self, init, last, gs.flatten, rfl, fun x hx => h1 x (List.mem_cons_of_mem _ hx), h2,
          h3 _ _ rfl, hr⟩
  · rintro (⟨hm, init, last, rest, rfl, h1, h2, h3, gs, rfl, hg⟩ | ⟨hm, gs, rfl, hg⟩)
    · refine ⟨((v, p) :: init ++ [last]) :: gs, by simp, fun g h => ?_⟩
      rcases List.mem_cons.1 h with rfl | h
      · refine ⟨(v, p) :: init, last, rfl, fun x hx => ?_, h2, fun x rest e => ?_⟩
        · rcases List.mem_cons.1 hx with rfl | hx
          · exact hm
          · exact h1 x hx
        · cases e
          exact h3
      · exact hg g h
    · refine ⟨[(v, p)] :: gs, rfl, fun g h => ?_⟩
      rcases List.mem_cons.1 h with rfl | h
      · exact ⟨[], (v, p), rfl, fun _ h => absurd h List.not_mem_nil, hm, fun x rest e => by
          cases e
          exact fun _ h => absurd h List.not_mem_nil⟩
      · exact hg g h

theorem restOnLines_cons {c : Params} {v : Val σ} {p : Params} {l : List (Val σ × Params)} :
    RestOnLines c ((v, p) :: l) ↔ SameDict c (lineParams v p) ∧
      ((Marked p ∧ RestOnLines c l) ∨ (¬ Marked p ∧ OnLines l)) := by
  constructor
  · rintro ⟨init, last, rest, h, h1, h2, h3, h4⟩
    cases init with
    | nil =>
      cases h
      exact ⟨h3 _ (List.mem_singleton.2 rfl), .inr ⟨h2, h4⟩⟩
    | cons x init =>
      cases h
      exact ⟨h3 _ List.mem_cons_self, .inl ⟨h1 _ List.mem_cons_self, init, last, rest, rfl,
        fun x hx => h1 x (List.mem_cons_of_mem _ hx), h2, fun x hx => h3 x (List.mem_cons_of_mem _ hx), h4⟩⟩
  · rintro ⟨hd, ⟨hm, init, last, rest, rfl, h1, h2, h3, h4⟩ | ⟨hm, h4⟩⟩
    · refine ⟨(v, p) :: init, last, rest, rfl, fun x hx => ?_, h2, fun x hx => ?_, h4⟩
      · rcases List.mem_cons.1 hx with rfl | hx
        · exact hm
        · exact h1 x hx
      · rcases List.mem_cons.1 hx with rfl | hx
        · exact hd
        · exact h3 x hx
    · refine ⟨[], (v, p), l, rfl, fun _ h => absurd h List.not_mem_nil, hm, fun x hx => ?_, h4⟩
      rw [List.mem_singleton.1 hx]
      exact hd

theorem stuck_iff (l : List (Val σ × Params)) :
    (Stuck none l ↔ ¬ OnLines l) ∧ ∀ c, Stuck (some c) l ↔ ¬ RestOnLines c l := by
  induction l with
  | nil =>
    refine ⟨⟨fun h => absurd rfl h, fun h => absurd onLines_nil h⟩, fun c => ⟨fun _ => ?_, fun _ => nofun⟩⟩
    rintro ⟨init, last, rest, h, -⟩
    cases init <;> cases h
  | cons vp l ih =>
    obtain ⟨v, p⟩ := vp
    constructor
    · rw [onLines_cons]
      constructor
      · rintro (⟨c, h, -⟩ | ⟨hm, h⟩ | ⟨hm, h⟩)
        · cases h
        · rintro (⟨-, h'⟩ | ⟨h', -⟩)
          · exact (ih.2 _).1 h h'
          · exact h' hm
        · rintro (⟨h', -⟩ | ⟨-, h'⟩)
          · exact hm h'
          · exact ih.1.1 h h'
      · intro h
        by_cases hm : Marked p
        · exact .inr (.inl ⟨hm, (ih.2 _).2 fun h' => h (.inl ⟨hm, h'⟩)⟩)
        · exact .inr (.inr ⟨hm, ih.1.2 fun h' => h (.inr ⟨hm, h'⟩)⟩)
    · intro c
      rw [restOnLines_cons]
      constructor
      · rintro (⟨c', h, hc⟩ | ⟨hm, h⟩ | ⟨hm, h⟩)
        · cases h
          exact fun h => hc h.1
        · rintro ⟨-, ⟨-, h'⟩ | ⟨h', -⟩⟩
          · exact (ih.2 c).1 h h'
          · exact h' hm
        · rintro ⟨-, ⟨h', -⟩ | ⟨-, h'⟩⟩
          · exact hm h'
          · exact ih.1.1 h h'
      · intro h
        by_cases hd : SameDict c (lineParams v p)
        · by_cases hm : Marked p
          · exact .inr (.inl ⟨hm, (ih.2 c).2 fun h' => h ⟨hd, .inl ⟨hm, h'⟩⟩⟩)
          · exact .inr (.inr ⟨hm, ih.1.2 fun h' => h ⟨hd, .inr ⟨hm, h'⟩⟩⟩)
        · exact .inl ⟨c, rfl, hd⟩

/-- Values without parameters are on lines of their own. -/
theorem onLines_bare (values : List (Val σ)) : OnLines (values.map fun v => (v, ([] : Params))) := by
  induction values with
  | nil => exact onLines_nil
  | cons v l ih =>
    refine onLines_cons.2 (.inr ⟨?_, ih⟩)
    rintro ⟨_, h, -⟩
    cases h

/-- When a list can be written. -/
theorem dumpMulti_cases {L : Lib} {o : Obj σ} {s : AttrSpec} (hs : s.convs ∈ listConvs) {values : List (Val σ)}
    (ht : o.get s.attr = .many values) (hk : ∀ v ∈ values, ∃ k ∈ s.convs.flatMap convKinds, OfKind k v) (st : DState) :
    (∃ x e, dictGet? o.extraParams (upper s.attr) = some x ∧ ListFault values x e ∧ dumpMulti L s o st = .error e) ∨
      ((∀ x e, dictGet? o.extraParams (upper s.attr) = some x → ¬ ListFault values x e) ∧
        ∃ is, dumpMulti L s o st = .ok (is, st)) := by
  have bare : ∃ is, dumpMultiLoop L s (values.map fun v => (v, [])) none [] st = .ok (is, st) := by
    rcases loop_stuck (L := L) hs (values.map fun v => (v, [])) none [] st (fun vp h => by
      obtain ⟨v, hv, rfl⟩ := List.mem_map.1 h
      exact hk v hv) with ⟨h, -⟩ | ⟨-, h⟩
    · exact absurd (onLines_bare values) ((stuck_iff _).1.1 h)
    · exact h
  unfold dumpMulti extraKey
  rw [ht]
  dsimp only
  generalize dictGet? o.extraParams (upper s.attr) = x
  match x with
  | none => exact .inr ⟨nofun, bare⟩
  | some (.one p) =>
    unfold zipParams
    dsimp only
    by_cases hp : p = []
    · refine .inr ⟨fun x e hx hf => ?_, by rw [if_pos hp]; exact bare⟩
      cases hx
      cases hf with
      | dict h _ => exact h hp
      | dictLength h _ => exact h hp
    · left
      rw [if_neg hp]
      by_cases hl : p.length = values.length
      · exact ⟨_, _, rfl, .dict hp hl, by rw [if_neg (not_not.2 hl)]; rfl⟩
      · exact ⟨_, _, rfl, .dictLength hp hl, by rw [if_pos hl]; rfl⟩
  | some (.many ps) =>
    unfold zipParams
    dsimp only
    by_cases hp : ps = []
    · refine .inr ⟨fun x e hx hf => ?_, by rw [if_pos hp]; exact bare⟩
      cases hx
      cases hf with
      | length h _ => exact h hp
      | lines h _ _ => exact h hp
    · rw [if_neg hp]
      by_cases hl : ps.length = values.length
      · rw [if_neg (not_not.2 hl)]
        rcases loop_stuck (L := L) hs (values.zip ps) none [] st
            (fun vp h => hk _ (List.of_mem_zip (a := vp.1) (b := vp.2) h).1) with ⟨h1, h2⟩ | ⟨h1, h2⟩
        · exact .inl ⟨_, _, rfl, .lines hp hl ((stuck_iff _).1.1 h1), h2⟩
        · refine .inr ⟨fun x e hx hf => ?_, h2⟩
          cases hx
          cases hf with
          | length _ h => exact h hl
          | lines _ _ h => exact h1 ((stuck_iff _).1.2 h)
      · exact .inl ⟨_, _, rfl, .length hp hl, by rw [if_pos hl]; rfl⟩

theorem dumpMulti_writes {L : Lib} {F : PyErr → Prop} {Z : Nat → Prop} {o : Obj σ} {s : AttrSpec}
    (hs : s.convs ∈ listConvs)
    (ht : ∃ l, o.get s.attr = .many l ∧ ∀ v ∈ l, ∃ k ∈ s.convs.flatMap convKinds, OfKind k v)
    (hF : ∀ l x e, o.get s.attr = .many l → dictGet? o.extraParams (upper s.attr) = some x → ListFault l x e → F e)
    {b : Bool} {st : DState} (hst : ReadyState Z b st) :
    Writes F (fun r => ReadyState Z b r.2) (dumpMulti L s o st) := by
  obtain ⟨values, ht, hk⟩ := ht
  rcases dumpMulti_cases (L := L) hs ht hk st with ⟨x, e, h1, h2, h3⟩ | ⟨-, is, h⟩
  · rw [h3]
    exact .error (hF _ _ _ ht h1 h2)
  · rw [h]
    exact .ok hst

/-! ### Time spans -/

theorem dumpSpanValue_writes {L : Lib} {F : PyErr → Prop} {Z : Nat → Prop} {s : Span} {d : DT}
    (h : s.prec ≠ .day → TimeFine L F Z d) (p : Params) {ctx : Ctx} (hc : ReadyCtx Z ctx) :
    Writes F (fun r => ReadyCtx Z r.2.2) (dumpSpanValue L s d p ctx) := by
  unfold dumpSpanValue
  refine .ite (fun _ => .ok hc) fun hp => serializeDt_writes (h fun e => hp ?_) p hc
  unfold Span.isAllDay
  rw [e]
  rfl

theorem dumpSpan_writes {L : Lib} {F : PyErr → Prop} {Z : Nat → Prop} {o : Obj σ} {s : Span}
    (ht : o.get "timespan".toList = .one (.span s))
    (hb : ∀ d, s.prec ≠ .day → s.begin? = some d → TimeFine L F Z d)
    (he : ∀ d, s.prec ≠ .day → s.dur? = none → s.end? = some d → TimeFine L F Z d)
    (hpb : ∀ b, s.begin? = some b → ListedParams o "BEGIN" → F .attributeError)
    (hpd : ∀ d, s.dur? = some d → ListedParams o "DURATION" → F .attributeError)
    (hpe : ∀ d, s.dur? = none → s.end? = some d → ListedParams o (if s.cls = .todo then "DUE" else "DTEND") →
      F .attributeError)
    {st : DState} (hst : ReadyState Z false st) :
    Writes F (fun r => ReadyCtx Z r.2.ctx) (dumpSpan L o st) := by
  unfold dumpSpan
  rw [ht]
  dsimp only
  refine Writes.bind (Q := fun r => ReadyCtx Z r.2.ctx) ?_ fun ⟨a, st1⟩ _ h1 => ?_
  · unfold dumpSpanBegin
    cases hbg : s.begin? with
    | none => exact .ok hst.1
    | some b =>
      dsimp only
      rw [hst.2, if_neg (by decide)]
      refine (extraParamsOf_writes fun p ps hp => hpb b hbg ⟨p, ps, hp⟩).bind fun p _ _ => ?_
      exact (dumpSpanValue_writes (fun hp => hb b hp hbg) _ hst.1).bind fun ⟨t, p, ctx⟩ _ h => .ok h
  · refine Writes.bind (Q := fun r => ReadyCtx Z r.2.ctx) ?_ fun ⟨b, st2⟩ _ h2 => .ok h2
    unfold dumpSpanEnd
    cases hd : s.dur? with
    | some d =>
      exact (extraParamsOf_writes fun p ps hp => hpd d hd ⟨p, ps, hp⟩).bind fun p _ _ => .ok h1
    | none =>
      cases hen : s.end? with
      | none => exact .ok h1
      | some en =>
        dsimp only
        refine (extraParamsOf_writes fun p ps hp => hpe en hd hen ⟨p, ps, ?_⟩).bind fun p _ _ => ?_
        · rw [← hp]
          cases s.cls <;> rfl
        · exact (dumpSpanValue_writes (fun hp => he en hp hd hen) _ h1).bind fun ⟨t, p, ctx⟩ _ h => .ok h

/-! ### Actions -/

theorem dumpAction_writes {F : PyErr → Prop} {Z : Nat → Prop} {o : Obj σ} (hc : o.cls ∉ [Cls.calendar, .event, .todo])
    (ha : o.cls = .customAlarm → ∃ t, o.get "_action".toList = .one (.text t))
    (hp : ∀ ps, dictGet? o.extraParams "ACTION".toList = some (.many ps) → F .typeError)
    {b : Bool} {st : DState} (hst : ReadyState Z b st) :
    Writes F (fun r => ReadyState Z b r.2) (dumpAction o st) := by
  have : ∃ t, o.action = .one (.text t) := by
    unfold Obj.action
    cases hcl : o.cls with
    | customAlarm =>
      obtain ⟨t, ht⟩ := ha hcl
      exact ⟨t, ht⟩
    | calendar => rw [hcl] at hc; exact absurd hc (by decide)
    | event => rw [hcl] at hc; exact absurd hc (by decide)
    | todo => rw [hcl] at hc; exact absurd hc (by decide)
    | _ => exact ⟨_, rfl⟩
  obtain ⟨t, ht⟩ := this
  unfold dumpAction
  rw [ht]
  generalize dictGet? o.extraParams "ACTION".toList = x at hp
  match x with
  | none => exact .ok hst
  | some (.one p) => exact .ok hst
  | some (.many ps) => exact .error (hp ps rfl)

/-! ### Members -/

theorem dumpMembers_writes {F : PyErr → Prop} {Z : Nat → Prop} {b : Bool} {mem : MemberDump σ} (l : List (Val σ))
    (hl : ∀ v ∈ l, ∃ m, v = .comp m)
    (hm : ∀ m, .comp m ∈ l → ∀ st, ReadyState Z b st → Writes F (fun r => ReadyState Z b r.2) (mem m st))
    {st : DState} (hst : ReadyState Z b st) : Writes F (fun r => ReadyState Z b r.2) (dumpMembers mem l st) := by
  induction l generalizing st with
  | nil => exact .ok hst
  | cons v l ih =>
    obtain ⟨m, rfl⟩ := hl v List.mem_cons_self
    unfold dumpMembers
    refine (hm m List.mem_cons_self st hst).bind fun ⟨i, st1⟩ _ h1 => ?_
    refine (ih (fun v h => hl v (List.mem_cons_of_mem _ h)) (fun m h => hm m (List.mem_cons_of_mem _ h)) h1).bind
      fun ⟨is, st2⟩ _ h2 => .ok h2

theorem dumpMember_writes {F : PyErr → Prop} {Z : Nat → Prop} {b : Bool} {mem : MemberDump σ} {o : Obj σ} {attr : Str}
    (ht : ∃ l, o.get attr = .many l ∧ (∀ v ∈ l, ∃ m, v = .comp m) ∧
      ∀ m, .comp m ∈ l → ∀ st, ReadyState Z b st → Writes F (fun r => ReadyState Z b r.2) (mem m st))
    (hp : SomeParams o (upper attr) → F .valueError)
    {st : DState} (hst : ReadyState Z b st) : Writes F (fun r => ReadyState Z b r.2) (dumpMember mem attr o st) := by
  obtain ⟨l, hl, h1, h2⟩ := ht
  unfold dumpMember
  refine (raiseIf_writes fun h => hp ?_).bind fun _ _ _ => ?_
  · unfold extraKey at h
    cases hx : dictGet? o.extraParams (upper attr) with
    | none => rw [hx] at h; cases h
    | some e =>
      rw [hx] at h
      cases e with
      | one p => exact .inl ⟨p, by simpa [ExtraVal.truthy] using h, hx⟩
      | many ps => exact .inr ⟨ps, by simpa [ExtraVal.truthy] using h, hx⟩
  · rw [hl]
    exact dumpMembers_writes l h1 h2 hst

/-! ### Objects -/

/-- What is needed of the components in an object. -/
def MembersFine (Z : Nat → Prop) (mem : MemberDump σ) (P : σ → PyErr → Prop) (b : Bool) (o : Obj σ) : Prop :=
  ∀ m, MemberOf o m → ∀ st, ReadyState Z b st → Writes (P m) (fun r => ReadyState Z b r.2) (mem m st)

theorem conv_writes {L : Lib} {Z : Nat → Prop} {mem : MemberDump σ} {T : σ → Prop} {P : σ → PyErr → Prop}
    {o : Obj σ} (ht : Typed T o) (hz : ∀ d t z, WrittenTime (fun _ _ => False) o d → L.dtIsUtc d = false → d.tz = some t →
      L.conv t = .timezone z → Z z) {b : Bool} (hm : MembersFine Z mem P b o) {cv : Conv} (hcv : cv ∈ o.cls.convs)
    (hts : cv ≠ .timespan) {st : DState} (hst : ReadyState Z b st) :
    Writes (WriteFault L P o) (fun r => ReadyState Z b r.2) (cv.dump L mem o st) := by
  have tf : ∀ d, WrittenTime (fun _ _ => False) o d → TimeFine L (WriteFault L P o) Z d := fun d hd =>
    ⟨fun t h1 h2 h3 => .zone hd h1 h2 h3, fun t z h1 h2 h3 => hz d t z hd h1 h2 h3⟩
  cases cv with
  | value s =>
    unfold Conv.dump
    dsimp only
    cases hmu : s.multi with
    | true =>
      rw [if_pos rfl]
      obtain ⟨a, ks, hr, ha, rfl⟩ := listRow hcv hmu
      refine dumpMulti_writes (listConvs_of hcv hmu) (ha ▸ ht.list a _ hr) (fun l x e h1 h2 h3 => ?_) hst
      rw [← ha] at h1 h2
      exact .listParams hr h1 h2 h3
    | false =>
      rw [if_neg (by decide)]
      obtain ⟨a, ks, hr, ha, rfl⟩ := oneRow hcv hmu
      refine dumpSingle_writes (ha ▸ ht.one a _ hr) ?_ ?_ ?_ hst
      · rw [← ha]
        exact fun v p ps h1 h2 => .params hr h1 h2
      · rw [← ha]
        exact fun d hd => tf d (.attr hr hd)
      · rw [← ha]
        exact fun n h1 h2 => .number hr h1 h2
  | member attr ics =>
    obtain ⟨a, hr, rfl⟩ := memberRow hcv
    obtain ⟨l, h1, h2⟩ := ht.members a hr
    refine dumpMember_writes ⟨l, h1, fun v hv => ?_, fun m hml st hst => ?_⟩ (fun hs => .memberParams hr hs) hst
    · obtain ⟨m, hm, -⟩ := h2 v hv
      exact ⟨m, hm⟩
    · have hmo : MemberOf o m := ⟨a, hr, l, h1, hml⟩
      exact (hm m hmo st hst).mono (fun e he => .member hmo he) fun _ h => h
  | timespan => exact absurd rfl hts
  | alarmAction =>
    have hc := action_alarm hcv
    exact dumpAction_writes hc ht.action (fun ps h => .actionParams hc h) hst
  | calendarTimezone => exact .ok hst

theorem span_writes {L : Lib} {Z : Nat → Prop} {mem : MemberDump σ} {T : σ → Prop} {P : σ → PyErr → Prop}
    {o : Obj σ} (ht : Typed T o) (hz : ∀ d t z, WrittenTime (fun _ _ => False) o d → L.dtIsUtc d = false → d.tz = some t →
      L.conv t = .timezone z → Z z) (hcv : .timespan ∈ o.cls.convs) {st : DState} (hst : ReadyState Z false st) :
    Writes (WriteFault L P o) (fun r => ReadyCtx Z r.2.ctx) (Conv.timespan.dump L mem o st) := by
  have tf : ∀ d, WrittenTime (fun _ _ => False) o d → TimeFine L (WriteFault L P o) Z d := fun d hd =>
    ⟨fun t h1 h2 h3 => .zone hd h1 h2 h3, fun t z h1 h2 h3 => hz d t z hd h1 h2 h3⟩
  have hc := timespan_cls hcv
  obtain ⟨s, hs⟩ := ht.span hc
  exact dumpSpan_writes hs (fun d h1 h2 => tf d (.begin hc hs h1 h2)) (fun d h1 h2 h3 => tf d (.end hc hs h1 h2 h3))
    (fun b h1 h2 => .beginParams hc hs h1 h2) (fun d h1 h2 => .durationParams hc hs h1 h2)
    (fun d h1 h2 h3 => .endParams hc hs h1 h2 h3) hst

theorem dumpConvs_writes {L : Lib} {Z : Nat → Prop} {mem : MemberDump σ} {T : σ → Prop} {P : σ → PyErr → Prop}
    {o : Obj σ} (ht : Typed T o) (hz : ∀ d t z, WrittenTime (fun _ _ => False) o d → L.dtIsUtc d = false → d.tz = some t →
      L.conv t = .timezone z → Z z) (cvs : List Conv) (hcv : ∀ cv ∈ cvs, cv ∈ o.cls.convs) (hnd : cvs.Nodup) {b : Bool}
    (hm : MembersFine Z mem P b o) (hts : .timespan ∈ cvs → b = false ∧ ∀ b', MembersFine Z mem P b' o)
    {st : DState} (hst : ReadyState Z b st) :
    Writes (WriteFault L P o) (fun r => ReadyCtx Z r.2.ctx ∧ (.timespan ∉ cvs → r.2.dtstart = b))
      (dumpConvs L mem cvs o st) := by
  induction cvs generalizing b st with
  | nil => exact .ok ⟨hst.1, fun _ => hst.2⟩
  | cons cv cvs ih =>
    obtain ⟨hn, hnd'⟩ := List.nodup_cons.1 hnd
    have hcv' := fun c hc => hcv c (List.mem_cons_of_mem _ hc)
    unfold dumpConvs
    by_cases hc : cv = .timespan
    · subst hc
      obtain ⟨rfl, hall⟩ := hts List.mem_cons_self
      refine (span_writes ht hz (hcv _ List.mem_cons_self) hst).bind fun ⟨a, st1⟩ _ h1 => ?_
      refine (ih hcv' hnd' (hall st1.dtstart) (fun h => absurd h hn) ⟨h1, rfl⟩).bind fun ⟨bs, st2⟩ _ h2 => ?_
      exact .ok ⟨h2.1, fun h => absurd List.mem_cons_self h⟩
    · refine (conv_writes ht hz hm (hcv _ List.mem_cons_self) hc hst).bind fun ⟨a, st1⟩ _ h1 => ?_
      refine (ih hcv' hnd' hm (fun h => hts (List.mem_cons_of_mem _ h)) h1).bind fun ⟨bs, st2⟩ _ h2 => ?_
      exact .ok ⟨h2.1, fun h => h2.2 fun h' => h (List.mem_cons_of_mem _ h')⟩

theorem dumpObj_writes {L : Lib} {Z : Nat → Prop} {mem : MemberDump σ} {T : σ → Prop} {P : σ → PyErr → Prop}
    {o : Obj σ} (ht : Typed T o) (hz : ∀ d t z, WrittenTime (fun _ _ => False) o d → L.dtIsUtc d = false → d.tz = some t →
      L.conv t = .timezone z → Z z) {b : Bool} (hm : MembersFine Z mem P b o)
    (hts : .timespan ∈ o.cls.convs → b = false ∧ ∀ b', MembersFine Z mem P b' o) {st : DState} (hst : ReadyState Z b st) :
    Writes (WriteFault L P o) (fun r => ReadyState Z b r.2) (dumpObj L mem o st) := by
  unfold dumpObj
  refine (dumpConvs_writes ht hz o.cls.convs (fun _ h => h) (convs_distinct _) hm hts hst).bind fun ⟨is, st1⟩ _ h1 => .ok ?_
  unfold postDump
  by_cases h : .timespan ∈ o.cls.convs
  · rw [if_pos h]
    exact ⟨h1.1, (hts h).1.symm⟩
  · rw [if_neg h]
    exact ⟨h1.1, h1.2 h⟩

theorem dumpAlarm_writes {L : Lib} {Z : Nat → Prop} {o : Alarm} (ht : TypedAlarm o)
    (hz : ∀ d t z, AlarmWritten o d → L.dtIsUtc d = false → d.tz = some t → L.conv t = .timezone z → Z z) {b : Bool}
    {st : DState} (hst : ReadyState Z b st) :
    Writes (AlarmWriteFault L o) (fun r => ReadyState Z b r.2) (dumpAlarm L o st) := by
  refine dumpObj_writes ht.2 (fun d t z hd => hz d t z ?_) (fun m => nomatch m) (fun h => ?_) hst
  · cases hd with
    | attr h1 h2 => exact .attr h1 h2
    | begin h1 h2 h3 h4 => exact .begin h1 h2 h3 h4
    | «end» h1 h2 h3 h4 h5 => exact .end h1 h2 h3 h4 h5
    | member _ h => exact h.elim
  · rcases timespan_cls h with h | h <;> exact absurd (by rw [h]; decide) ht.1

theorem dumpEntry_writes {L : Lib} {Z : Nat → Prop} {o : EntryObj} (ht : TypedEntry o)
    (hz : ∀ d t z, EntryWritten o d → L.dtIsUtc d = false → d.tz = some t → L.conv t = .timezone z → Z z)
    {st : DState} (hst : ReadyState Z false st) :
    Writes (EntryWriteFault L o) (fun r => ReadyState Z false r.2) (dumpEntry L o st) := by
  have hm : ∀ b, MembersFine Z (dumpAlarm L) (AlarmWriteFault L) b o := by
    rintro b m hmo st hst
    obtain ⟨a, ha, l, hl, hml⟩ := hmo
    obtain ⟨l', hl', htl⟩ := ht.2.members a ha
    rw [hl] at hl'
    cases hl'
    obtain ⟨m', hm', htm⟩ := htl _ hml
    cases hm'
    exact dumpAlarm_writes htm (fun d t z hd => hz d t z (.member ⟨a, ha, l, hl, hml⟩ hd)) hst
  refine dumpObj_writes ht.2 (fun d t z hd => hz d t z ?_) (hm false) (fun h => ⟨rfl, hm⟩) hst
  cases hd with
  | attr h1 h2 => exact .attr h1 h2
  | begin h1 h2 h3 h4 => exact .begin h1 h2 h3 h4
  | «end» h1 h2 h3 h4 h5 => exact .end h1 h2 h3 h4 h5
  | member _ h => exact h.elim

theorem dumpZones_writes {L : Lib} {F : PyErr → Prop} (l : List (Str × Nat))
    (h : ∀ kv ∈ l, ∀ e, L.tzDump kv.2 = .error e → F e) : Writes F (fun _ => True) (dumpZones L l) := by
  induction l with
  | nil => exact .ok trivial
  | cons kv l ih =>
    obtain ⟨k, z⟩ := kv
    unfold dumpZones
    refine Writes.bind (Q := fun _ => True) ?_ fun i _ _ => ?_
    · cases hz : L.tzDump z with
      | ok i => exact .ok trivial
      | error e => exact .error (h _ List.mem_cons_self e hz)
    · exact (ih fun kv hkv => h kv (List.mem_cons_of_mem _ hkv)).bind fun _ _ _ => .ok trivial

theorem before_convs : ∀ cv ∈ calConvsBefore, cv ∈ Cls.calendar.convs := by decide +kernel
theorem after_convs : ∀ cv ∈ calConvsAfter, cv ∈ Cls.calendar.convs := by decide +kernel
theorem before_nodup : calConvsBefore.Nodup := by decide +kernel
theorem after_nodup : calConvsAfter.Nodup := by decide +kernel
theorem before_span : .timespan ∉ calConvsBefore := by decide +kernel
theorem after_span : .timespan ∉ calConvsAfter := by decide +kernel

theorem dumpCalendar_writes {L : Lib} {o : CalObj} (ht : TypedCalendar o) :
    Writes (CalendarWriteFault L o) (fun i => ∃ name items, i = .cont name items) (dumpCalendar L o) := by
  obtain ⟨hcls, ht⟩ := ht
  have hm : MembersFine (UsesZone L o) (dumpEntry L) (EntryWriteFault L) false o := by
    rintro m hmo st hst
    obtain ⟨a, ha, l, hl, hml⟩ := hmo
    obtain ⟨l', hl', htl⟩ := ht.members a ha
    rw [hl] at hl'
    cases hl'
    obtain ⟨m', hm', htm⟩ := htl _ hml
    cases hm'
    exact dumpEntry_writes htm (fun d t z hd h1 h2 h3 => ⟨d, t, .member ⟨a, ha, l, hl, hml⟩ hd, h1, h2, h3⟩) hst
  have hz : ∀ d t z, WrittenTime (fun _ _ => False) o d → L.dtIsUtc d = false → d.tz = some t → L.conv t = .timezone z →
      UsesZone L o z := by
    intro d t z hd h1 h2 h3
    refine ⟨d, t, ?_, h1, h2, h3⟩
    cases hd with
    | attr h1 h2 => exact .attr h1 h2
    | begin h1 h2 h3 h4 => exact .begin h1 h2 h3 h4
    | «end» h1 h2 h3 h4 h5 => exact .end h1 h2 h3 h4 h5
    | member _ h => exact h.elim
  have own : ∀ e, WriteFault L (EntryWriteFault L) o e → CalendarWriteFault L o e := fun e h => .own h
  unfold dumpCalendar
  refine ((dumpConvs_writes ht hz calConvsBefore (by rw [hcls]; exact before_convs) before_nodup hm
    (fun h => absurd h before_span) ⟨⟨[], rfl, fun _ h => nomatch h⟩, rfl⟩).mono own fun _ h => h).bind
    fun ⟨a, st1⟩ _ h1 => ?_
  refine ((dumpConvs_writes ht hz calConvsAfter (by rw [hcls]; exact after_convs) after_nodup hm
    (fun h => absurd h after_span) ⟨h1.1, h1.2 before_span⟩).mono own fun _ h => h).bind fun ⟨b, st2⟩ _ h2 => ?_
  obtain ⟨zs, hzs, hall⟩ := h2.1
  refine (dumpZones_writes (st2.ctx.getD []) fun kv hkv e he => ?_).bind fun zones _ _ => .ok ⟨_, _, rfl⟩
  dsimp only at hzs
  rw [hzs] at hkv
  exact .zone (hall kv hkv) he

end Ics
