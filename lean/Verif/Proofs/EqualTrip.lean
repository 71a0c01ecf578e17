import Verif.Proofs.Equal
import Verif.Proofs.EqualLoad
import Verif.Proofs.Unquote

/-
Helper lemmas for C96: what is read back is equal if and only if the component was settled.
-/
namespace Ics

variable {σ : Type}

theorem listAttrs_all {c : Cls} {k : String} (h : k ∈ listAttrs c) : k ∈ allAttrs c :=
  List.mem_append_left _ (List.mem_append_right _ h)

theorem equalVal_comp {e : Env} {R : σ → σ → Prop} {m : σ} {w : Val σ} (h : EqualVal e R (.comp m) w) : ∃ m', w = .comp m' ∧ R m m' := by
  cases h with
  | number h _ => cases h
  | comp h => exact ⟨_, rfl, h⟩

theorem equalAttr_in {e : Env} {R : σ → σ → Prop} {m : σ} {v w : AttrVal σ} (h : EqualAttr e R v w) (hm : InAttr m v) :
    ∃ m', InAttr m' w ∧ R m m' := by
  cases hm with
  | one =>
    cases h with | one h =>
    obtain ⟨m', rfl, hr⟩ := equalVal_comp h
    exact ⟨m', .one, hr⟩
  | many hm =>
    cases h with | many h =>
    rename_i l l'
    obtain ⟨w, hw, h⟩ : ∃ w, w ∈ l' ∧ EqualVal e R (.comp m) w := by
      induction h with
      | nil => exact absurd hm List.not_mem_nil
      | cons h _ ih =>
        rcases List.mem_cons.1 hm with rfl | hm
        · exact ⟨_, List.mem_cons_self, h⟩
        · obtain ⟨w, hw, h⟩ := ih hm
          exact ⟨w, .tail _ hw, h⟩
    obtain ⟨m', rfl, hr⟩ := equalVal_comp h
    exact ⟨m', .many hw, hr⟩

/-- A component that is equal to a settled one is settled. -/
theorem equal_settled {e : Env} {R : σ → σ → Prop} {M N : σ → Prop} (hR : ∀ x y, R x y → N y → M x) {a b : Obj σ}
    (h : EqualObj e R a b) (hb : SettledObj N b) : SettledObj M a := by
  refine ⟨fun k x hx => ?_, fun k hk => ?_, fun k hk m hm => ?_⟩
  · have := h.params k
    rw [hx] at this
    generalize hy : dictGet? b.extraParams k = y at this
    cases this with | some _ =>
    rw [h.cls]
    exact hb.keys k _ hy
  · obtain ⟨l', hl', hp⟩ := hb.lists k (h.cls ▸ hk)
    have ha := h.attrs k (listAttrs_all hk)
    rw [hl'] at ha
    generalize hv : a.get k.toList = v at ha
    cases ha with | many ha =>
    refine ⟨_, rfl, ?_⟩
    have hq := h.params k.toUpper.toList
    rcases hp with ⟨rfl, hp⟩ | ⟨ps, hne, hlen, hp⟩
    · cases ha
      rw [hp] at hq
      generalize dictGet? a.extraParams k.toUpper.toList = y at hq
      cases hq
      exact .inl ⟨rfl, rfl⟩
    · rw [hp] at hq
      generalize dictGet? a.extraParams k.toUpper.toList = y at hq
      cases hq with | some hq =>
      cases hq with | many hq =>
      refine .inr ⟨_, fun e => ?_, ?_, rfl⟩
      · subst e
        cases ha
        exact hne rfl
      · rw [hq.length_eq, hlen, ha.length_eq]
  · obtain ⟨m', hm', hr⟩ := equalAttr_in (h.attrs k hk) hm
    exact hR _ _ hr (hb.members k (h.cls ▸ hk) m' hm')

/-! ### Components that are the same up to quotation marks -/

theorem unquote_equalParams {p q : Params} (h : unquoteParams p = unquoteParams q) : EqualParams p q := by
  intro k
  have : dictGet? (unquoteParams p) k = dictGet? (unquoteParams q) k := by rw [h]
  rw [dictGet_unquote, dictGet_unquote] at this
  have := congrArg (Option.map (List.map PVal.text)) this
  rw [Option.map_map, Option.map_map] at this
  have e : (List.map PVal.text ∘ fun l : List PVal => l.map fun v : PVal => (⟨false, v.text⟩ : PVal)) = List.map PVal.text := by
    funext l
    simp
  rwa [e] at this

theorem unquote_equalExtra {x y : ExtraVal} (h : x.unquote = y.unquote) : EqualExtra x y := by
  cases x with
  | one p =>
    cases y with
    | one q => exact .one (unquote_equalParams (ExtraVal.one.inj h))
    | many qs => cases h
  | many ps =>
    cases y with
    | one q => cases h
    | many qs =>
      replace h := ExtraVal.many.inj h
      refine .many ?_
      induction ps generalizing qs with
      | nil =>
        cases qs with
        | nil => exact .nil
        | cons => cases h
      | cons p ps ih =>
        cases qs with
        | nil => cases h
        | cons q qs =>
          rw [List.map_cons, List.map_cons] at h
          exact .cons (unquote_equalParams (List.cons.inj h).1) (ih _ (List.cons.inj h).2)

mutual
theorem unquote_equalItem : ∀ {i j : Item}, i.unquote = j.unquote → EqualItem i j
  | .line ⟨n, p, v⟩, .line ⟨m, q, w⟩, h => by
    have h := Item.line.inj h
    obtain ⟨rfl, h2, rfl⟩ := ContentLine.mk.inj h
    exact .line (unquote_equalParams h2)
  | .cont n is, .cont m js, h => by
    obtain ⟨rfl, h2⟩ := Item.cont.inj h
    exact .cont (unquote_equalItems h2)
  | .line _, .cont _ _, h => by cases h
  | .cont _ _, .line _, h => by cases h

theorem unquote_equalItems : ∀ {is js : List Item}, Item.unquotes is = Item.unquotes js → EqualItems is js
  | [], [], _ => .nil
  | i :: is, j :: js, h => by
    rw [Item.unquotes, Item.unquotes] at h
    obtain ⟨h1, h2⟩ := List.cons.inj h
    exact .cons (unquote_equalItem h1) (unquote_equalItems h2)
  | [], _ :: _, h => by cases h
  | _ :: _, [], h => by cases h
end

theorem SameTime.equal {L : Lib} (hU : UtcOk L) {a b : DT} (h : SameTime L a b) : EqualTime L.toEnv a b := by
  obtain ⟨h1, -, h3⟩ := h
  by_cases e : a.tz = b.tz
  · exact .inl ⟨e, h1⟩
  · rcases h3 with h3 | ⟨m, n, hm, hn, um, un⟩
    · exact absurd h3 e
    · refine .inr ⟨_, _, 0, 0, hm, hn, fun e' => e (by rw [hm, hn, e']), fun f => hU.off m _ _ um, fun f => hU.off n _ _ un, ?_⟩
      rw [h1]

theorem SameTime?.equal {L : Lib} (hU : UtcOk L) {a b : Option DT} (h : SameTime? L a b) :
    Option.Rel (EqualTime L.toEnv) a b := by
  cases a <;> cases b
  · exact .none
  · exact h.elim
  · exact h.elim
  · exact .some (SameTime.equal hU h)

theorem same_equalVal {L : Lib} (hU : UtcOk L) {R' R : σ → σ → Prop} {f : σ → σ} {v w : Val σ}
    (h : SameVal L R' (v.unquote f) (w.unquote f)) (hrefl : ∀ x, R' x x)
    (hR : ∀ x y, v = .comp x → w = .comp y → R' (f x) (f y) → R x y) : EqualVal L.toEnv R v w := by
  generalize hv : v.unquote f = v' at h
  generalize hw : w.unquote f = w' at h
  cases h with
  | same =>
    have h := hv.trans hw.symm
    clear hv hw
    cases v with
    | comp x =>
      cases w with
      | comp y =>
        have e : f x = f y := Val.comp.inj h
        exact .comp (hR x y rfl rfl (e ▸ hrefl _))
      | _ => cases h
    | person a m x =>
      cases w with
      | person b n y =>
        obtain ⟨rfl, rfl, h3⟩ := Val.person.inj h
        exact .person (unquote_equalParams h3)
      | _ => cases h
    | _ =>
      cases w <;> first | cases h; exact .refl fun _ h => nomatch h | cases h
  | dt h =>
    cases v <;> cases hv
    cases w <;> cases hw
    exact .dt (h.equal hU)
  | span h =>
    cases v <;> cases hv
    cases w <;> cases hw
    exact .span ⟨h.cls, h.begin.equal hU, h.end_.equal hU, h.dur, h.prec⟩
  | comp h =>
    cases v <;> cases hv
    cases w <;> cases hw
    exact .comp (hR _ _ rfl rfl h)

theorem same_equalAttr {L : Lib} (hU : UtcOk L) {R' R : σ → σ → Prop} {f : σ → σ} {v w : AttrVal σ}
    (h : SameAttr L R' (v.unquote f) (w.unquote f)) (hrefl : ∀ x, R' x x)
    (hR : ∀ x y, InAttr x v → InAttr y w → R' (f x) (f y) → R x y) : EqualAttr L.toEnv R v w := by
  cases v with
  | none =>
    cases w with
    | none => exact .none
    | _ => cases h
  | one v =>
    cases w with
    | one w =>
      cases h with | one h =>
      exact .one (same_equalVal hU h hrefl fun x y hx hy => hR x y (hx ▸ .one) (hy ▸ .one))
    | _ => cases h
  | many l =>
    cases w with
    | many m =>
      generalize hv : (AttrVal.many l).unquote f = v' at h
      generalize hw : (AttrVal.many m).unquote f = w' at h
      cases h with
      | many h =>
        replace hv := AttrVal.many.inj hv
        replace hw := AttrVal.many.inj hw
        subst hv hw
        refine .many ?_
        rw [List.forall₂_map_left_iff, List.forall₂_map_right_iff] at h
        replace hR : ∀ x y, .comp x ∈ l → .comp y ∈ m → R' (f x) (f y) → R x y := fun x y hx hy => hR x y (.many hx) (.many hy)
        induction h with
        | nil => exact .nil
        | cons h _ ih =>
          refine .cons (same_equalVal hU h hrefl fun x y hx hy => hR x y (hx ▸ List.mem_cons_self) (hy ▸ List.mem_cons_self)) ?_
          exact ih fun x y hx hy => hR x y (.tail _ hx) (.tail _ hy)
      | _ => cases hv
    | _ => cases h

/-- Settled components that are the same up to quotation marks are equal. -/
theorem same_equal {L : Lib} (hU : UtcOk L) {R' R : σ → σ → Prop} {f : σ → σ} {M N : σ → Prop} {a b : Obj σ}
    (h : SameObj L R' (a.unquote f) (b.unquote f)) (hrefl : ∀ x, R' x x)
    (hR : ∀ x y, M x → N y → R' (f x) (f y) → R x y) (ha : SettledObj M a) (hb : SettledObj N b) : EqualObj L.toEnv R a b := by
  have hc : a.cls = b.cls := h.cls
  have hattrs : ∀ k ∈ allAttrs a.cls, EqualAttr L.toEnv R (a.get k.toList) (b.get k.toList) := fun k hk => by
    have := h.attrs k hk
    rw [get_unquote, get_unquote] at this
    exact same_equalAttr hU this hrefl fun x y hx hy =>
      hR x y (ha.members k hk x hx) (hb.members k (hc ▸ hk) y hy)
  refine ⟨hc, h.extraName, unquote_equalItems h.extra, hattrs, fun k => ?_⟩
  have known : k ∈ (oneParamKeys a.cls ++ (listAttrs a.cls).map String.toUpper).map String.toList ∨
      dictGet? a.extraParams k = none ∧ dictGet? b.extraParams k = none := by
    cases e1 : dictGet? a.extraParams k with
    | some x => exact .inl (ha.keys k x e1)
    | none =>
      cases e2 : dictGet? b.extraParams k with
      | some x => exact .inl (hc ▸ hb.keys k x e2)
      | none => exact .inr ⟨rfl, rfl⟩
  have same : ∀ x y : Option ExtraVal, x.map ExtraVal.unquote = y.map ExtraVal.unquote → Option.Rel EqualExtra x y := by
    intro x y e
    cases x <;> cases y
    · exact .none
    · cases e
    · cases e
    · exact .some (unquote_equalExtra (Option.some.inj e))
  rcases known with hk | ⟨e1, e2⟩
  · rw [List.map_append, List.mem_append] at hk
    rcases hk with hk | hk
    · obtain ⟨k', hk', rfl⟩ := List.mem_map.1 hk
      have := h.params k' hk'
      rw [extra_unquote, extra_unquote] at this
      exact same _ _ this
    · obtain ⟨n, hn, rfl⟩ := List.mem_map.1 hk
      clear hk
      obtain ⟨k, hk, rfl⟩ := List.mem_map.1 hn
      obtain ⟨l, hl, hp⟩ := ha.lists k hk
      rcases hp with ⟨rfl, hp⟩ | ⟨ps, -, -, hp⟩
      · obtain ⟨l', hl', hp'⟩ := hb.lists k (hc ▸ hk)
        have hq := hattrs k (listAttrs_all hk)
        rw [hl, hl'] at hq
        cases hq with | many hq =>
        cases hq
        rcases hp' with ⟨-, hp'⟩ | ⟨_, hne, _⟩
        · rw [hp, hp']
          exact .none
        · exact absurd rfl hne
      · have := h.listParams k hk (ps.map unquoteParams) (by rw [extra_unquote, hp]; rfl)
        rw [extra_unquote] at this
        apply same
        rw [hp, this]
        rfl
  · rw [e1, e2]
    exact .none

/-! ### Alarms, events, todos and calendars -/

theorem SameTime.refl (L : Lib) (d : DT) : SameTime L d d := ⟨rfl, rfl, .inl rfl⟩

theorem sameVal_refl (L : Lib) (R : σ → σ → Prop) (v : Val σ) : SameVal L R v v := .same v

theorem same_reflObj (L : Lib) (R : σ → σ → Prop) (a : Obj σ) : SameObj L R a a := by
  refine ⟨rfl, rfl, rfl, fun k _ => ?_, fun _ _ => rfl, fun _ _ _ h => h, fun _ _ h => .inl h⟩
  cases a.get k.toList with
  | none => exact .none
  | one v => exact .one (.same v)
  | many l => exact .many (fa_refl fun v _ => .same v)

theorem same_equalAlarm {L : Lib} (hU : UtcOk L) {a b : Alarm} (ha : SettledAlarm a) (hb : SettledAlarm b)
    (h : SameAlarm L (unquoteAlarm a) (unquoteAlarm b)) : EqualAlarm L.toEnv a b :=
  same_equal (f := id) hU h (fun x => x.elim) (fun x => x.elim) ha hb

theorem same_equalEntry {L : Lib} (hU : UtcOk L) {a b : EntryObj} (ha : SettledEntry a) (hb : SettledEntry b)
    (h : SameEntry L (unquoteEntry a) (unquoteEntry b)) : EqualEntry L.toEnv a b :=
  same_equal (f := unquoteAlarm) hU h (fun x => same_reflObj L _ x) (fun _ _ hx hy => same_equalAlarm hU hx hy) ha hb

theorem same_equalCalendar {L : Lib} (hU : UtcOk L) {a b : CalObj} (ha : SettledCalendar a) (hb : SettledCalendar b)
    (h : SameCalendar L (unquoteCalendar a) (unquoteCalendar b)) : EqualCalendar L.toEnv a b :=
  same_equal (f := unquoteEntry) hU h (fun x => same_reflObj L _ x) (fun _ _ hx hy => same_equalEntry hU hx hy) ha hb

theorem equal_settledAlarm {e : Env} {a b : Alarm} (h : EqualAlarm e a b) (hb : SettledAlarm b) : SettledAlarm a :=
  equal_settled (fun _ _ _ _ => trivial) h hb

theorem equal_settledEntry {e : Env} {a b : EntryObj} (h : EqualEntry e a b) (hb : SettledEntry b) : SettledEntry a :=
  equal_settled (R := EqualAlarm e) (fun _ _ h hb => equal_settledAlarm h hb) h hb

theorem equal_settledCalendar {e : Env} {a b : CalObj} (h : EqualCalendar e a b) (hb : SettledCalendar b) : SettledCalendar a :=
  equal_settled (R := EqualEntry e) (fun _ _ h hb => equal_settledEntry h hb) h hb

/-! ### Texts -/

mutual
theorem writable_proper : ∀ {i : Item}, WritableTree i → ProperItem i
  | .line cl, h => by
    rw [WritableTree] at h
    exact .line h.distinct
  | .cont n is, h => by
    rw [WritableTree] at h
    exact .cont (writable_propers h.2)

theorem writable_propers : ∀ {is : List Item}, WritableTrees is → ∀ i ∈ is, ProperItem i
  | [], _ => fun _ h => absurd h List.not_mem_nil
  | i :: is, h => by
    rw [WritableTrees] at h
    intro j hj
    rcases List.mem_cons.1 hj with hj | hj
    · have := writable_proper h.1
      exact hj ▸ this
    · exact writable_propers h.2 j hj
end

end Ics
