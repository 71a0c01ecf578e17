import Verif.Spec.Equal
import Verif.Proofs.Rrule
import Verif.Proofs.Write

/-
Helper lemmas for C96.
-/
namespace Ics

variable {σ : Type}

/-! ### Times and spans -/

theorem timeEq_iff (e : Env) (a b : DT) : e.eq a b = true ↔ EqualTime e a b := by
  unfold Env.eq EqualTime
  by_cases ht : a.tz = b.tz
  · rw [if_pos ht, decide_eq_true_eq]
    constructor
    · exact fun h => .inl ⟨ht, h⟩
    · rintro (h | ⟨t, u, o, p, h1, h2, hne, _⟩)
      · exact h.2
      · exact absurd (Option.some.inj (h1 ▸ h2 ▸ ht)) hne
  · rw [if_neg ht]
    constructor
    · intro h
      cases ha : a.tz with
      | none => rw [ha] at h; cases h
      | some t =>
        cases hb : b.tz with
        | none => rw [ha, hb] at h; cases h
        | some u =>
          rw [ha, hb] at h
          dsimp only at h
          by_cases h1 : e.tzOff t a.wall a.fold = e.tzOff t a.wall (!a.fold)
          · by_cases h2 : e.tzOff u b.wall b.fold = e.tzOff u b.wall (!b.fold)
            · rw [if_neg (not_not.2 h1), if_neg (not_not.2 h2), decide_eq_true_eq] at h
              refine .inr ⟨t, u, _, _, rfl, rfl, fun he => ht (by rw [ha, hb, he]), fun f => ?_, fun f => ?_, h⟩
              · by_cases hf : f = a.fold
                · rw [hf]
                · rw [h1]; congr 1; cases f <;> cases ha : a.fold <;> simp_all
              · by_cases hf : f = b.fold
                · rw [hf]
                · rw [h2]; congr 1; cases f <;> cases hb : b.fold <;> simp_all
            · rw [if_neg (not_not.2 h1), if_pos h2] at h; cases h
          · rw [if_pos h1] at h; cases h
    · rintro (h | ⟨t, u, o, p, h1, h2, hne, h3, h4, h5⟩)
      · exact absurd h.1 ht
      · rw [h1, h2]
        dsimp only
        rw [if_neg (by rw [h3, h3]; simp), if_neg (by rw [h4, h4]; simp), h3, h4, decide_eq_true_eq]
        exact h5

theorem optTimeEq_iff (e : Env) (a b : Option DT) : e.optEq a b = true ↔ Option.Rel (EqualTime e) a b := by
  cases a <;> cases b <;> simp only [Env.optEq]
  · exact ⟨fun _ => .none, fun _ => trivial⟩
  · exact ⟨nofun, nofun⟩
  · exact ⟨nofun, nofun⟩
  · rw [timeEq_iff]
    exact ⟨fun h => .some h, fun | .some h => h⟩

theorem spanEq_iff (e : Env) (a b : Span) : e.spanEq a b = true ↔ EqualSpan e a b := by
  unfold Env.spanEq
  simp only [Bool.and_eq_true, decide_eq_true_eq, optTimeEq_iff]
  exact ⟨fun ⟨⟨⟨⟨h1, h2⟩, h3⟩, h4⟩, h5⟩ => ⟨h1, h2, h3, h4, h5⟩, fun ⟨h1, h2, h3, h4, h5⟩ => ⟨⟨⟨⟨h1, h2⟩, h3⟩, h4⟩, h5⟩⟩

/-! ### Parameters -/

theorem paramsEq_dictEqBy (p q : Params) :
    paramsEq p q = dictEqBy (fun x y => decide (x.map PVal.text = y.map PVal.text)) p q := by
  unfold paramsEq dictEqBy
  have hl : (p.length == q.length) = decide (p.length = q.length) := by rw [Bool.eq_iff_iff]; simp
  rw [hl]
  congr 1
  · congr 1
    funext kv
    cases dictGet? q kv.1 with
    | none => rfl
    | some v =>
      rw [Bool.eq_iff_iff, beq_iff_eq, decide_eq_true_eq]
      constructor
      · exact fun h => (Option.some.inj h).symm
      · exact fun h => congrArg some h.symm

theorem paramsEq_iff_equal {p q : Params} (hp : ProperDict p) (hq : ProperDict q) : paramsEq p q = true ↔ EqualParams p q := by
  rw [paramsEq_dictEqBy, dictEqBy_iff hp hq]
  refine forall_congr' fun k => ?_
  cases dictGet? p k <;> cases dictGet? q k <;> simp [SameOpt]

theorem listEq_iff {ν : Type} {eq : ν → ν → Bool} {R : ν → ν → Prop} {a b : List ν}
    (h : ∀ x ∈ a, ∀ y ∈ b, (eq x y = true ↔ R x y)) : listEqBy eq a b = true ↔ List.Forall₂ R a b := by
  induction a generalizing b with
  | nil =>
    cases b with
    | nil => exact ⟨fun _ => .nil, fun _ => rfl⟩
    | cons y b => exact ⟨nofun, nofun⟩
  | cons x a ih =>
    cases b with
    | nil => exact ⟨nofun, nofun⟩
    | cons y b =>
      rw [listEqBy, Bool.and_eq_true, List.forall₂_cons, h x List.mem_cons_self y List.mem_cons_self,
        ih fun x hx y hy => h x (.tail _ hx) y (.tail _ hy)]

theorem extraValEq_iff {a b : ExtraVal} (ha : ProperExtra a) (hb : ProperExtra b) : extraValEq a b = true ↔ EqualExtra a b := by
  cases a <;> cases b <;> simp only [extraValEq]
  · rw [paramsEq_iff_equal ha hb]
    exact ⟨.one, fun | .one h => h⟩
  · exact ⟨nofun, nofun⟩
  · exact ⟨nofun, nofun⟩
  · rw [listEq_iff fun x hx y hy => paramsEq_iff_equal (ha x hx) (hb y hy)]
    exact ⟨.many, fun | .many h => h⟩

theorem extraEq_iff {a b : List (Str × ExtraVal)} (ha : ProperDict a) (hb : ProperDict b)
    (pa : ∀ k x, dictGet? a k = some x → ProperExtra x) (pb : ∀ k x, dictGet? b k = some x → ProperExtra x) :
    dictEqBy extraValEq a b = true ↔ ∀ k, Option.Rel EqualExtra (dictGet? a k) (dictGet? b k) := by
  rw [dictEqBy_iff ha hb]
  refine forall_congr' fun k => ?_
  cases ea : dictGet? a k with
  | none =>
    cases eb : dictGet? b k with
    | none => exact ⟨fun _ => .none, fun _ => trivial⟩
    | some y => exact ⟨nofun, nofun⟩
  | some x =>
    cases eb : dictGet? b k with
    | none => exact ⟨nofun, nofun⟩
    | some y =>
      show extraValEq x y = true ↔ _
      rw [extraValEq_iff (pa k x ea) (pb k y eb)]
      exact ⟨.some, fun | .some h => h⟩

/-! ### Items -/

mutual
theorem itemEq_iff : ∀ (a b : Item), ProperItem a → ProperItem b → (itemEq a b = true ↔ EqualItem a b)
  | .line a, .line b, ha, hb => by
    obtain ⟨n, p, v⟩ := a
    obtain ⟨m, q, w⟩ := b
    cases ha with | line ha =>
    cases hb with | line hb =>
    rw [itemEq, lineEq, Bool.and_eq_true, Bool.and_eq_true, beq_iff_eq, beq_iff_eq, paramsEq_iff_equal ha hb]
    constructor
    · rintro ⟨⟨h1, h2⟩, h3⟩
      dsimp only at h1 h2 h3
      subst h1 h3
      exact .line h2
    · rintro (h | _)
      exact ⟨⟨rfl, h⟩, rfl⟩
  | .cont n is, .cont m js, ha, hb => by
    cases ha with | cont ha =>
    cases hb with | cont hb =>
    rw [itemEq, Bool.and_eq_true, beq_iff_eq, itemsEq_iff is js ha hb]
    constructor
    · rintro ⟨rfl, h⟩
      exact .cont h
    · rintro (_ | h)
      exact ⟨rfl, h⟩
  | .line _, .cont _ _, _, _ => ⟨nofun, nofun⟩
  | .cont _ _, .line _, _, _ => ⟨nofun, nofun⟩

theorem itemsEq_iff : ∀ (a b : List Item), (∀ i ∈ a, ProperItem i) → (∀ i ∈ b, ProperItem i) →
    (itemsEq a b = true ↔ EqualItems a b)
  | [], [], _, _ => ⟨fun _ => .nil, fun _ => rfl⟩
  | i :: is, j :: js, ha, hb => by
    rw [itemsEq, Bool.and_eq_true, itemEq_iff i j (ha i List.mem_cons_self) (hb j List.mem_cons_self),
      itemsEq_iff is js (fun x hx => ha x (.tail _ hx)) (fun x hx => hb x (.tail _ hx))]
    exact ⟨fun ⟨h1, h2⟩ => .cons h1 h2, fun | .cons h1 h2 => ⟨h1, h2⟩⟩
  | [], _ :: _, _, _ => ⟨nofun, nofun⟩
  | _ :: _, [], _, _ => ⟨nofun, nofun⟩
end

/-! ### Values and attributes -/

theorem valEq_iff {e : Env} {eq : σ → σ → Bool} {R : σ → σ → Prop} {M : σ → Prop}
    (h : ∀ a b, M a → M b → (eq a b = true ↔ R a b)) {v w : Val σ} (hv : ProperVal M v) (hw : ProperVal M w) :
    valEq e eq v w = true ↔ EqualVal e R v w := by
  constructor
  · intro hq
    cases v <;> cases w
    all_goals first | cases hq | skip
    · rw [valEq, beq_iff_eq] at hq
      exact hq ▸ .text _
    · rw [valEq, decide_eq_true_eq] at hq
      exact hq ▸ .url _
    · rw [valEq, beq_iff_eq] at hq
      exact .number rfl (congrArg some hq.symm)
    · rw [valEq, beq_iff_eq] at hq
      rename_i b
      refine .number rfl ?_
      rw [hq]
      cases b <;> rfl
    · rw [valEq, beq_iff_eq] at hq
      rename_i b _
      refine .number (n := if b then 1 else 0) ?_ (congrArg some hq.symm)
      cases b <;> rfl
    · rw [valEq, beq_iff_eq] at hq
      rename_i b _
      subst hq
      refine .number (n := if b then 1 else 0) ?_ ?_ <;> cases b <;> rfl
    · rw [valEq, beq_iff_eq] at hq
      exact hq ▸ .bytes _
    · exact .dt ((timeEq_iff _ _ _).1 hq)
    · rw [valEq, beq_iff_eq] at hq
      exact hq ▸ .dur _
    · rw [valEq, Bool.and_eq_true, beq_iff_eq, beq_iff_eq] at hq
      rw [hq.1, hq.2]
      exact .geo _ _
    · rw [valEq, Bool.and_eq_true, Bool.and_eq_true, beq_iff_eq, decide_eq_true_eq, paramsEq_iff_equal hv hw] at hq
      rw [hq.1.1, hq.1.2]
      exact .person hq.2
    · exact .span ((spanEq_iff _ _ _).1 hq)
    · exact .comp ((h _ _ hv hw).1 hq)
  · intro hq
    cases hq with
    | text => simp [valEq]
    | url => simp [valEq]
    | bytes => simp [valEq]
    | dur => simp [valEq]
    | geo => simp [valEq]
    | number h1 h2 =>
      cases v with
      | int n =>
        cases w with
        | int m => cases h1; cases h2; simp [valEq]
        | bool b => cases h1; cases b <;> cases h2 <;> rfl
        | _ => cases h2
      | bool a =>
        cases w with
        | int m => cases h2; cases a <;> cases h1 <;> rfl
        | bool b => cases a <;> cases b <;> cases h1 <;> first | rfl | cases h2
        | _ => cases h2
      | _ => cases h1
    | dt h => exact (timeEq_iff _ _ _).2 h
    | span h => exact (spanEq_iff _ _ _).2 h
    | person h => simp [valEq, paramsEq_iff_equal hv hw, h]
    | comp hr => exact (h _ _ hv hw).2 hr

theorem attrEq_iff {e : Env} {eq : σ → σ → Bool} {R : σ → σ → Prop} {M : σ → Prop}
    (h : ∀ a b, M a → M b → (eq a b = true ↔ R a b)) {v w : AttrVal σ} (hv : ProperAttr M v) (hw : ProperAttr M w) :
    attrEq e eq v w = true ↔ EqualAttr e R v w := by
  cases v <;> cases w <;> simp only [attrEq]
  · exact ⟨fun _ => .none, fun _ => trivial⟩
  · exact ⟨nofun, nofun⟩
  · exact ⟨nofun, nofun⟩
  · exact ⟨nofun, nofun⟩
  · rw [valEq_iff h hv hw]
    exact ⟨.one, fun | .one h => h⟩
  · exact ⟨nofun, nofun⟩
  · exact ⟨nofun, nofun⟩
  · exact ⟨nofun, nofun⟩
  · rw [listEq_iff fun x hx y hy => valEq_iff h (hv x hx) (hw y hy)]
    exact ⟨.many, fun | .many h => h⟩

/-! ### Components -/

theorem attrChecks_all (c : Cls) (p : Str → Bool) :
    (c.attrChecks.all fun kc => p kc.1) = true ↔ ∀ k ∈ allAttrs c, p k.toList = true := by
  have key : (∀ k ∈ c.attrChecks.map Prod.fst, k ∈ (allAttrs c).map String.toList) ∧
      ∀ k ∈ (allAttrs c).map String.toList, k ∈ c.attrChecks.map Prod.fst := by cases c <;> decide +kernel
  rw [List.all_eq_true]
  constructor
  · intro h k hk
    obtain ⟨kc, hkc, e⟩ := List.mem_map.1 (key.2 _ (List.mem_map_of_mem hk))
    exact e ▸ h kc hkc
  · intro h kc hkc
    obtain ⟨k, hk, e⟩ := List.mem_map.1 (key.1 _ (List.mem_map_of_mem hkc))
    exact e ▸ h k hk

theorem objEq_iff {e : Env} {eq : σ → σ → Bool} {R : σ → σ → Prop} {M : σ → Prop}
    (h : ∀ a b, M a → M b → (eq a b = true ↔ R a b)) {a b : Obj σ} (ha : ProperObj M a) (hb : ProperObj M b) :
    objEq e eq a b = true ↔ EqualObj e R a b := by
  unfold objEq
  rw [Bool.and_eq_true, Bool.and_eq_true, Bool.and_eq_true, Bool.and_eq_true, decide_eq_true_eq, beq_iff_eq,
    itemsEq_iff _ _ ha.extra hb.extra, extraEq_iff ha.keys hb.keys ha.params hb.params,
    attrChecks_all a.cls fun k => attrEq e eq (a.get k) (b.get k)]
  constructor
  · rintro ⟨⟨⟨h1, h2, h3⟩, h4⟩, h5⟩
    exact ⟨h1, h2, h3, fun k hk => (attrEq_iff h (ha.attrs k hk) (hb.attrs k (h1 ▸ hk))).1 (h5 k hk), h4⟩
  · rintro ⟨h1, h2, h3, h4, h5⟩
    exact ⟨⟨⟨h1, h2, h3⟩, h5⟩, fun k hk => (attrEq_iff h (ha.attrs k hk) (hb.attrs k (h1 ▸ hk))).2 (h4 k hk)⟩

theorem alarmEq_iff {e : Env} {a b : Alarm} (ha : ProperAlarm a) (hb : ProperAlarm b) : alarmEq e a b = true ↔ EqualAlarm e a b :=
  objEq_iff (fun x => x.elim) ha hb

theorem entryEq_iff {e : Env} {a b : EntryObj} (ha : ProperEntry a) (hb : ProperEntry b) :
    entryEq e a b = true ↔ EqualEntry e a b :=
  objEq_iff (fun _ _ => alarmEq_iff) ha hb

theorem calendarEq_iff {e : Env} {a b : CalObj} (ha : ProperCalendar a) (hb : ProperCalendar b) :
    calendarEq e a b = true ↔ EqualCalendar e a b :=
  objEq_iff (fun _ _ => entryEq_iff) ha hb

/-! ### An equivalence relation -/

theorem EqualTime.symm {e : Env} {a b : DT} : EqualTime e a b → EqualTime e b a := by
  rintro (⟨h1, h2⟩ | ⟨t, u, o, p, h1, h2, h3, h4, h5, h6⟩)
  · exact .inl ⟨h1.symm, h2.symm⟩
  · exact .inr ⟨u, t, p, o, h2, h1, h3.symm, h5, h4, h6.symm⟩

theorem EqualTime.trans {e : Env} (hz : OneToOne e) {a b c : DT} : EqualTime e a b → EqualTime e b c → EqualTime e a c := by
  rintro (⟨h1, h2⟩ | ⟨t, u, o, p, h1, h2, h3, h4, h5, h6⟩) (⟨k1, k2⟩ | ⟨t', u', o', p', k1, k2, k3, k4, k5, k6⟩)
  · exact .inl ⟨h1.trans k1, h2.trans k2⟩
  · exact .inr ⟨t', u', o', p', h1.trans k1, k2, k3, h2 ▸ k4, k5, h2 ▸ k6⟩
  · exact .inr ⟨t, u, o, p, h1, k1 ▸ h2, h3, h4, k2 ▸ h5, k2 ▸ h6⟩
  · obtain rfl : u = t' := Option.some.inj (h2.symm.trans k1)
    obtain rfl : p = o' := (h5 false).symm.trans (k4 false)
    by_cases e1 : t = u'
    · subst e1
      refine .inl ⟨h1.trans k2.symm, hz t _ _ (fun f => (h4 f).trans (h4 false).symm) (fun f => (k5 f).trans (k5 false).symm) ?_⟩
      rw [h4, k5]
      exact h6.trans k6
    · exact .inr ⟨t, u', o, p', h1, k2, e1, h4, k5, h6.trans k6⟩

theorem rel_symm {α : Type} {R S : α → α → Prop} (h : ∀ x y, R x y → S y x) {a b : Option α} : Option.Rel R a b → Option.Rel S b a
  | .some k => .some (h _ _ k)
  | .none => .none

theorem rel_trans {α : Type} {R : α → α → Prop} (h : ∀ x y z, R x y → R y z → R x z) {a b c : Option α} :
    Option.Rel R a b → Option.Rel R b c → Option.Rel R a c
  | .some k, .some l => .some (h _ _ _ k l)
  | .none, .none => .none

theorem rel_refl {α : Type} {R : α → α → Prop} (h : ∀ x, R x x) (a : Option α) : Option.Rel R a a := by
  cases a
  · exact .none
  · exact .some (h _)

theorem fa_refl {α : Type} {R : α → α → Prop} {l : List α} (h : ∀ x ∈ l, R x x) : List.Forall₂ R l l := by
  induction l with
  | nil => exact .nil
  | cons x l ih => exact .cons (h x List.mem_cons_self) (ih fun y hy => h y (.tail _ hy))

theorem fa_symm {α : Type} {R S : α → α → Prop} (h : ∀ x y, R x y → S y x) {a b : List α} (k : List.Forall₂ R a b) :
    List.Forall₂ S b a := by
  induction k with
  | nil => exact .nil
  | cons k _ ih => exact .cons (h _ _ k) ih

theorem fa_trans {α : Type} {R : α → α → Prop} (h : ∀ x y z, R x y → R y z → R x z) {a b c : List α}
    (k : List.Forall₂ R a b) (l : List.Forall₂ R b c) : List.Forall₂ R a c := by
  induction k generalizing c with
  | nil => cases l; exact .nil
  | cons k _ ih =>
    cases l with | cons l1 l2 => exact .cons (h _ _ _ k l1) (ih l2)

theorem EqualExtra.refl (a : ExtraVal) : EqualExtra a a := by
  cases a
  · exact .one fun _ => rfl
  · exact .many (fa_refl fun _ _ _ => rfl)

theorem EqualExtra.symm {a b : ExtraVal} : EqualExtra a b → EqualExtra b a
  | .one h => .one fun k => (h k).symm
  | .many h => .many (fa_symm (fun _ _ h k => (h k).symm) h)

theorem EqualExtra.trans {a b c : ExtraVal} : EqualExtra a b → EqualExtra b c → EqualExtra a c
  | .one h, .one h' => .one fun k => (h k).trans (h' k)
  | .many h, .many h' => .many (fa_trans (fun _ _ _ h h' k => (h k).trans (h' k)) h h')

mutual
theorem EqualItem.refl : ∀ a, EqualItem a a
  | .line ⟨_, _, _⟩ => .line fun _ => rfl
  | .cont _ is => .cont (EqualItems.refl is)

theorem EqualItems.refl : ∀ a, EqualItems a a
  | [] => .nil
  | i :: is => .cons (EqualItem.refl i) (EqualItems.refl is)
end

mutual
theorem EqualItem.symm : ∀ {a b}, EqualItem a b → EqualItem b a
  | _, _, .line h => .line fun k => (h k).symm
  | _, _, .cont h => .cont (EqualItems.symm h)

theorem EqualItems.symm : ∀ {a b}, EqualItems a b → EqualItems b a
  | _, _, .nil => .nil
  | _, _, .cons h k => .cons (EqualItem.symm h) (EqualItems.symm k)
end

mutual
theorem EqualItem.trans : ∀ {a b c}, EqualItem a b → EqualItem b c → EqualItem a c
  | _, _, _, .line h, .line h' => .line fun k => (h k).trans (h' k)
  | _, _, _, .cont h, .cont h' => .cont (EqualItems.trans h h')

theorem EqualItems.trans : ∀ {a b c}, EqualItems a b → EqualItems b c → EqualItems a c
  | _, _, _, .nil, .nil => .nil
  | _, _, _, .cons h k, .cons h' k' => .cons (EqualItem.trans h h') (EqualItems.trans k k')
end

theorem EqualVal.refl {e : Env} {R : σ → σ → Prop} {v : Val σ} (h : ∀ m, v = .comp m → R m m) : EqualVal e R v v := by
  cases v with
  | text => exact .text _
  | url => exact .url _
  | int => exact .number rfl rfl
  | bool b => cases b <;> exact .number rfl rfl
  | bytes => exact .bytes _
  | dt => exact .dt (.inl ⟨rfl, rfl⟩)
  | dur => exact .dur _
  | geo => exact .geo _ _
  | person => exact .person fun _ => rfl
  | span => exact .span ⟨rfl, rel_refl (fun _ => .inl ⟨rfl, rfl⟩) _, rel_refl (fun _ => .inl ⟨rfl, rfl⟩) _, rfl, rfl⟩
  | comp m => exact .comp (h m rfl)

theorem EqualVal.symm {e : Env} {R S : σ → σ → Prop} (hR : ∀ x y, R x y → S y x) {v w : Val σ} :
    EqualVal e R v w → EqualVal e S w v
  | .text _ => .text _
  | .url _ => .url _
  | .bytes _ => .bytes _
  | .dur _ => .dur _
  | .geo _ _ => .geo _ _
  | .number h k => .number k h
  | .dt h => .dt h.symm
  | .span ⟨h1, h2, h3, h4, h5⟩ =>
    .span ⟨h1.symm, rel_symm (fun _ _ => EqualTime.symm) h2, rel_symm (fun _ _ => EqualTime.symm) h3, h4.symm, h5.symm⟩
  | .person h => .person fun k => (h k).symm
  | .comp h => .comp (hR _ _ h)

theorem EqualSpan.trans {e : Env} (hz : OneToOne e) {a b c : Span} : EqualSpan e a b → EqualSpan e b c → EqualSpan e a c :=
  fun ⟨h1, h2, h3, h4, h5⟩ ⟨k1, k2, k3, k4, k5⟩ =>
    ⟨h1.trans k1, rel_trans (R := EqualTime e) (fun _ _ _ h k => EqualTime.trans hz h k) h2 k2, rel_trans (R := EqualTime e) (fun _ _ _ h k => EqualTime.trans hz h k) h3 k3,
      h4.trans k4, h5.trans k5⟩

theorem EqualVal.trans {e : Env} (hz : OneToOne e) {R : σ → σ → Prop} (hR : ∀ x y z, R x y → R y z → R x z) {u v w : Val σ}
    (h : EqualVal e R u v) (k : EqualVal e R v w) : EqualVal e R u w := by
  cases h with
  | number h1 h2 =>
    cases k with
    | number k1 k2 => exact .number h1 (k2.trans (k1.symm.trans h2))
    | _ => cases h2
  | dt h =>
    cases k with
    | dt k => exact .dt (h.trans hz k)
    | number k _ => cases k
  | span h =>
    cases k with
    | span k => exact .span (h.trans hz k)
    | number k _ => cases k
  | person h =>
    cases k with
    | person k => exact .person fun x => (h x).trans (k x)
    | number k _ => cases k
  | comp h =>
    cases k with
    | comp k => exact .comp (hR _ _ _ h k)
    | number k _ => cases k
  | _ => exact k

theorem EqualAttr.refl {e : Env} {R : σ → σ → Prop} {v : AttrVal σ} (h : ∀ m, R m m) : EqualAttr e R v v := by
  cases v with
  | none => exact .none
  | one v => exact .one (.refl fun m _ => h m)
  | many l => exact .many (fa_refl fun v _ => .refl fun m _ => h m)

theorem EqualAttr.symm {e : Env} {R : σ → σ → Prop} (hR : ∀ x y, R x y → R y x) {v w : AttrVal σ} :
    EqualAttr e R v w → EqualAttr e R w v
  | .none => .none
  | .one h => .one (h.symm hR)
  | .many h => .many (fa_symm (fun _ _ h => h.symm hR) h)

theorem EqualAttr.trans {e : Env} (hz : OneToOne e) {R : σ → σ → Prop} (hR : ∀ x y z, R x y → R y z → R x z)
    {u v w : AttrVal σ} : EqualAttr e R u v → EqualAttr e R v w → EqualAttr e R u w
  | .none, .none => .none
  | .one h, .one k => .one (h.trans hz hR k)
  | .many h, .many k => .many (fa_trans (fun _ _ _ h k => h.trans hz hR k) h k)

theorem EqualObj.refl {e : Env} {R : σ → σ → Prop} (h : ∀ m, R m m) (a : Obj σ) : EqualObj e R a a :=
  ⟨rfl, rfl, .refl _, fun _ _ => .refl h, fun _ => rel_refl EqualExtra.refl _⟩

theorem EqualObj.symm {e : Env} {R : σ → σ → Prop} (hR : ∀ x y, R x y → R y x) {a b : Obj σ} (h : EqualObj e R a b) :
    EqualObj e R b a :=
  ⟨h.cls.symm, h.extraName.symm, h.extra.symm, fun k hk => (h.attrs k (h.cls ▸ hk)).symm hR,
    fun k => rel_symm (fun _ _ => EqualExtra.symm) (h.params k)⟩

theorem EqualObj.trans {e : Env} (hz : OneToOne e) {R : σ → σ → Prop} (hR : ∀ x y z, R x y → R y z → R x z) {a b c : Obj σ}
    (h : EqualObj e R a b) (k : EqualObj e R b c) : EqualObj e R a c :=
  ⟨h.cls.trans k.cls, h.extraName.trans k.extraName, h.extra.trans k.extra,
    fun n hn => (h.attrs n hn).trans hz hR (k.attrs n (h.cls ▸ hn)),
    fun n => rel_trans (R := EqualExtra) (fun _ _ _ h k => EqualExtra.trans h k) (h.params n) (k.params n)⟩

theorem EqualCalendar.refl (e : Env) (a : CalObj) : EqualCalendar e a a :=
  EqualObj.refl (EqualObj.refl (EqualObj.refl fun m => m.elim)) a

theorem EqualCalendar.symm {e : Env} {a b : CalObj} : EqualCalendar e a b → EqualCalendar e b a :=
  fun h => EqualObj.symm (fun _ _ h => EqualObj.symm (fun _ _ h => EqualObj.symm (fun _ _ h => h) h) h) h

theorem EqualAlarm.trans {e : Env} (hz : OneToOne e) {a b c : Alarm} (h : EqualAlarm e a b) (k : EqualAlarm e b c) :
    EqualAlarm e a c :=
  EqualObj.trans hz (fun _ _ _ h _ => h) h k

theorem EqualEntry.trans {e : Env} (hz : OneToOne e) {a b c : EntryObj} (h : EqualEntry e a b) (k : EqualEntry e b c) :
    EqualEntry e a c :=
  EqualObj.trans hz (fun x y z (h : EqualAlarm e x y) (k : EqualAlarm e y z) => EqualAlarm.trans hz h k) h k

theorem EqualCalendar.trans {e : Env} (hz : OneToOne e) {a b c : CalObj} (h : EqualCalendar e a b) (k : EqualCalendar e b c) :
    EqualCalendar e a c :=
  EqualObj.trans hz (fun x y z (h : EqualEntry e x y) (k : EqualEntry e y z) => EqualEntry.trans hz h k) h k

end Ics
