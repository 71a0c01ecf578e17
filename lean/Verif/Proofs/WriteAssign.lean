import Verif.Proofs.WriteReject

/-
Which attributes stay of the right type when they are assigned.
-/
namespace Ics

variable {σ : Type}

/-- The kinds of values that an assignment leaves. -/
def checkKinds : Check → Option (List ValKind)
  | .any => none
  | .status => some [.text]
  | .utc => some [.time]
  | .utcRequired => some [.time]
  | .str => some [.text]
  | .strOpt => some [.text]
  | .organizerOpt => some [.organizer]
  | .geo => some [.geo]
  | .range _ => some [.int, .bool]
  | .datetime => some [.time]
  | .timedelta => some [.duration]
  | .trigger => some [.duration, .time]
  | .timespan _ => none
  | .list => none

theorem check_kinds {L : Lib} {c : Check} {ks : List ValKind} (hk : checkKinds c = some ks) {v v' : AttrVal σ}
    (h : c.run L v = .ok v') : v' = .none ∨ ∃ x, v' = .one x ∧ ∃ k ∈ ks, OfKind k x := by
  have fin : ∀ {k : ValKind} {x : Val σ}, OfKind k x → k ∈ ks → v' = .one x →
      v' = .none ∨ ∃ x, v' = .one x ∧ ∃ k ∈ ks, OfKind k x := fun h1 h2 h3 => .inr ⟨_, h3, _, h2, h1⟩
  have utc : ∀ {x : Except PyErr DT}, ks = [.time] →
      (x.map fun d => (.one (.dt d) : AttrVal σ)) = .ok v' → v' = .none ∨ ∃ x, v' = .one x ∧ ∃ k ∈ ks, OfKind k x := by
    rintro x rfl hx
    cases x with
    | error e => cases hx
    | ok d => exact .inr ⟨_, (Except.ok.inj hx).symm, _, List.mem_singleton.2 rfl, .time⟩
  unfold Check.run at h
  split at h
  all_goals first
    | (exfalso; exact Option.some_ne_none _ hk.symm)
    | (exfalso; cases h; done)
    | exact .inl (Except.ok.inj h).symm
    | skip
  all_goals (have hk := (Option.some.inj hk).symm; subst hk)
  all_goals first
    | exact utc rfl h
    | exact fin (k := .text) .text (by decide) (Except.ok.inj h).symm
    | exact fin (k := .organizer) .organizer (by decide) (Except.ok.inj h).symm
    | exact fin (k := .geo) .geo (by decide) (Except.ok.inj h).symm
    | exact fin (k := .bool) .bool (by decide) (Except.ok.inj h).symm
    | exact fin (k := .time) .time (by decide) (Except.ok.inj h).symm
    | exact fin (k := .duration) .duration (by decide) (Except.ok.inj h).symm
    | skip
  · split at h
    · exact fin (k := .text) .text (by decide) (Except.ok.inj h).symm
    · cases h
  · split at h
    · exact fin (k := .int) .int (by decide) (Except.ok.inj h).symm
    · cases h

/-- An attribute has one row; it is no list. -/
def rowsB (c : Cls) : Bool :=
  (loneAttrs c).all fun p => (loneAttrs c).all (fun q => p.1.toList != q.1.toList || p.2 == q.2) &&
    ((listAttrKinds c).all (fun q => p.1.toList != q.1.toList) &&
      ((memberLists c).all (fun q => p.1.toList != q.toList) && (p.1.toList != "timespan".toList)))

theorem rows_apart (c : Cls) : rowsB c = true := by cases c <;> decide +kernel

/-- What an unchecked attribute is, in the table of converters. -/
def uncheckedB (c : Cls) (a : String) : Bool :=
  c.convs.any fun cv => match cv with
    | .value s => s.attr == a.toList && s.check == .any
    | _ => false

theorem rows_unchecked (c : Cls) : (uncheckedAttrs c).all (uncheckedB c) = true := by cases c <;> decide +kernel

/-- The checks of the other attributes. -/
def checkedB (c : Cls) : Conv → Bool
  | .value s => s.multi || (uncheckedAttrs c).any (fun a => a.toList == s.attr) ||
      match checkKinds s.check with
      | some ks => ks.all fun k => (s.convs.flatMap convKinds).contains k
      | none => false
  | _ => true

theorem rows_checked (c : Cls) : c.convs.all (checkedB c) = true := by cases c <;> decide +kernel

/-- The defaults are of the right types. -/
def ofKindB : ValKind → Val σ → Bool
  | .text, .text _ => true
  | .url, .url _ => true
  | .bytes, .bytes _ => true
  | .time, .dt _ => true
  | .duration, .dur _ => true
  | .int, .int _ => true
  | .bool, .bool _ => true
  | .geo, .geo _ _ => true
  | _, _ => false

theorem ofKind_of {k : ValKind} {v : Val σ} (h : ofKindB k v = true) : OfKind k v := by
  cases k <;> cases v <;> first | exact (Bool.false_ne_true h).elim | constructor

def oneTypedB (ks : List ValKind) : AttrVal σ → Bool
  | .none => true
  | .one v => ks.any fun k => ofKindB k v
  | .many _ => false

def emptyB : AttrVal σ → Bool
  | .many [] => true
  | _ => false

def spanB : AttrVal σ → Bool
  | .one (.span _) => true
  | _ => false

theorem fresh_one (L : Lib) (c : Cls) : (loneAttrs c).all (fun p => oneTypedB p.2 ((newObj L c : Obj σ).get p.1.toList)) = true := by
  cases c <;> rfl

theorem fresh_list (L : Lib) (c : Cls) : (listAttrKinds c).all (fun p => emptyB ((newObj L c : Obj σ).get p.1.toList)) = true := by
  cases c <;> rfl

theorem fresh_member (L : Lib) (c : Cls) : (memberLists c).all (fun p => emptyB ((newObj L c : Obj σ).get p.toList)) = true := by
  cases c <;> rfl

theorem fresh_span (L : Lib) (c : Cls) (h : c = .event ∨ c = .todo) : spanB ((newObj L c : Obj σ).get "timespan".toList) = true := by
  rcases h with rfl | rfl <;> rfl

theorem get_set (o : Obj σ) (a b : Str) (v : AttrVal σ) :
    ({ o with attrs := dictSet o.attrs a v } : Obj σ).get b = if b = a then v else o.get b := by
  unfold Obj.get
  dsimp only
  rw [dictGet_set_eq]
  by_cases h : b = a
  · rw [if_pos h, if_pos h]; rfl
  · rw [if_neg h, if_neg h]

theorem rows_of {c : Cls} {a : String} {ks : List ValKind} (h : (a, ks) ∈ loneAttrs c) :
    (∀ b ks', (b, ks') ∈ loneAttrs c → b.toList = a.toList → ks' = ks) ∧
      (∀ b ks', (b, ks') ∈ listAttrKinds c → b.toList ≠ a.toList) ∧
      (∀ b ∈ memberLists c, b.toList ≠ a.toList) ∧ a.toList ≠ "timespan".toList := by
  have := List.all_eq_true.1 (rows_apart c) _ h
  simp only [Bool.and_eq_true, List.all_eq_true, Bool.or_eq_true, bne_iff_ne, beq_iff_eq] at this
  obtain ⟨h1, h2, h3, h4⟩ := this
  refine ⟨fun b ks' hb e => ?_, fun b ks' hb e => h2 _ hb e.symm, fun b hb e => h3 _ hb e.symm, h4⟩
  rcases h1 _ hb with h | h
  · exact absurd e.symm h
  · exact h.symm

/-- Assigning a value of the right kind. -/
theorem set_typed {T : σ → Prop} {o : Obj σ} (ht : Typed T o) {a : String} {ks : List ValKind} (ha : (a, ks) ∈ loneAttrs o.cls)
    {v : AttrVal σ} (hv : v = .none ∨ ∃ x, v = .one x ∧ ∃ k ∈ ks, OfKind k x)
    (hact : o.cls = .customAlarm → a.toList = "_action".toList → ∃ t, v = .one (.text t)) :
    Typed T { o with attrs := dictSet o.attrs a.toList v } := by
  obtain ⟨r1, r2, r3, r4⟩ := rows_of ha
  constructor
  · intro b ks' hb
    rw [get_set]
    by_cases e : b.toList = a.toList
    · rw [if_pos e, r1 b ks' hb e]; exact hv
    · rw [if_neg e]; exact ht.one b ks' hb
  · intro b ks' hb
    rw [get_set, if_neg (r2 b ks' hb)]; exact ht.list b ks' hb
  · intro b hb
    rw [get_set, if_neg (r3 b hb)]; exact ht.members b hb
  · intro hc
    rw [get_set, if_neg (Ne.symm r4)]; exact ht.span hc
  · intro hc
    rw [get_set]
    by_cases e : "_action".toList = a.toList
    · rw [if_pos e]; exact hact hc e.symm
    · rw [if_neg e]; exact ht.action hc

theorem assigned_kind {L : Lib} {o o' : Obj σ} {a : String} {ks : List ValKind} (ha : (a, ks) ∈ loneAttrs o.cls)
    (hu : a ∉ uncheckedAttrs o.cls) {v : AttrVal σ} (h : Assigned L o a v o') :
    ∃ v', o' = { o with attrs := dictSet o.attrs a.toList v' } ∧ (v' = .none ∨ ∃ x, v' = .one x ∧ ∃ k ∈ ks, OfKind k x) := by
  obtain ⟨s, hs, hsa, h⟩ := h
  unfold Obj.setattr at h
  obtain ⟨v', hv', h⟩ := map_ok_iff.1 h
  refine ⟨v', h.symm, ?_⟩
  obtain ⟨r1, r2, -⟩ := rows_of ha
  have hm : s.multi = false := by
    refine Bool.eq_false_iff.2 fun hm => ?_
    obtain ⟨b, ks', hb, hba, -⟩ := listRow hs hm
    exact r2 b ks' hb (hba.trans hsa)
  obtain ⟨b, ks', hb, hba, rfl⟩ := oneRow hs hm
  have hks := r1 b _ hb (hba.trans hsa)
  have hc := List.all_eq_true.1 (rows_checked o.cls) _ hs
  unfold checkedB at hc
  dsimp only at hc
  rw [hm, Bool.false_or, Bool.or_eq_true] at hc
  rcases hc with hc | hc
  · obtain ⟨b, hb, hba⟩ := List.any_eq_true.1 hc
    rw [beq_iff_eq, hsa, String.toList_inj] at hba
    exact absurd (hba ▸ hb) hu
  · cases hk : checkKinds s.check with
    | none => rw [hk] at hc; cases hc
    | some kk =>
      rw [hk] at hc
      dsimp only at hc
      rcases check_kinds hk hv' with h | ⟨x, hx, k, hkk, hkx⟩
      · exact .inl h
      · refine .inr ⟨x, hx, k, ?_, hkx⟩
        rw [← hks]
        simpa using List.all_eq_true.1 hc k hkk

theorem assigned_any {L : Lib} {o : Obj σ} {a : String} (hu : a ∈ uncheckedAttrs o.cls) (v : AttrVal σ) :
    Assigned L o a v { o with attrs := dictSet o.attrs a.toList v } := by
  obtain ⟨cv, hcv, h2⟩ := List.any_eq_true.1 (List.all_eq_true.1 (rows_unchecked o.cls) _ hu)
  cases cv with
  | value s =>
    simp only [Bool.and_eq_true, beq_iff_eq] at h2
    refine ⟨s, hcv, h2.1, ?_⟩
    rw [h2.2]
    rfl
  | _ => exact (Bool.false_ne_true h2).elim

/-- Lists take any list. -/
def anyListB (c : Cls) (a : String) : Bool :=
  c.convs.any fun cv => match cv with
    | .value s => s.attr == a.toList && s.check == .list
    | _ => false

theorem rows_anyList {c : Cls} (h : c = .event ∨ c = .todo) : (listAttrKinds c).all (fun p => anyListB c p.1) = true := by
  rcases h with rfl | rfl <;> decide +kernel

theorem assigned_list {L : Lib} {o : Obj σ} (hc : o.cls = .event ∨ o.cls = .todo) {a : String} {ks : List ValKind}
    (ha : (a, ks) ∈ listAttrKinds o.cls) (l : List (Val σ)) :
    Assigned L o a (.many l) { o with attrs := dictSet o.attrs a.toList (.many l) } := by
  obtain ⟨cv, hcv, h2⟩ := List.any_eq_true.1 (List.all_eq_true.1 (rows_anyList hc) _ ha)
  cases cv with
  | value s =>
    simp only [Bool.and_eq_true, beq_iff_eq] at h2
    refine ⟨s, hcv, h2.1, ?_⟩
    rw [h2.2]
    rfl
  | _ => exact (Bool.false_ne_true h2).elim

end Ics
