import Verif.Spec.Container

/-
Lemmas about containers as mutable sequences (C45).
-/
namespace Ics

variable {α : Type}

theorem checkItems_ok_iff (I : ObjInfo α) (l : List α) : checkItems I l = .ok () ↔ OnlyItems I l := by
  induction l with
  | nil => exact ⟨fun _ _ h => (nomatch h), fun _ => rfl⟩
  | cons x l ih =>
    unfold checkItems
    constructor
    · intro h
      split at h
      · rename_i hx
        exact List.forall_mem_cons.2 ⟨hx, ih.1 h⟩
      · cases h
    · intro h
      obtain ⟨hx, hl⟩ := List.forall_mem_cons.1 h
      rw [if_pos hx]
      exact ih.2 hl

theorem checkItems_error (I : ObjInfo α) (l : List α) (h : ¬OnlyItems I l) :
    checkItems I l = .error .typeError := by
  induction l with
  | nil => exact absurd (fun _ h => nomatch h) h
  | cons x l ih =>
    unfold checkItems
    split
    · rename_i hx
      exact ih fun hl => h (List.forall_mem_cons.2 ⟨hx, hl⟩)
    · rfl

theorem mem_dropPositions (ps : List Int) (i : Nat) (l : List α) (x : α) (h : x ∈ dropPositions ps i l) :
    x ∈ l := by
  induction l generalizing i with
  | nil => exact h
  | cons y l ih =>
    unfold dropPositions at h
    split at h
    · exact List.mem_cons_of_mem _ (ih _ h)
    · rcases List.mem_cons.1 h with rfl | h
      · exact List.mem_cons_self
      · exact List.mem_cons_of_mem _ (ih _ h)

theorem mem_setPositions (ps : List Int) (vs l : List α) (x : α) (h : x ∈ setPositions ps vs l) :
    x ∈ vs ∨ x ∈ l := by
  induction ps generalizing vs l with
  | nil => unfold setPositions at h; exact .inr h
  | cons p ps ih =>
    cases vs with
    | nil => unfold setPositions at h; exact .inr h
    | cons v vs =>
      unfold setPositions at h
      rcases ih _ _ h with h | h
      · exact .inl (List.mem_cons_of_mem _ h)
      · rcases List.mem_or_eq_of_mem_set h with h | rfl
        · exact .inr h
        · exact .inl List.mem_cons_self

theorem listDel_mem (l l' : List α) (i : Idx) (h : listDel l i = .ok l') : ∀ x ∈ l', x ∈ l := by
  cases i with
  | int i =>
    unfold listDel at h
    dsimp only at h
    split at h
    · cases h
      exact fun x hx => List.mem_of_mem_eraseIdx hx
    · cases h
  | slice s =>
    unfold listDel at h
    dsimp only at h
    cases hs : s.indices l.length with
    | error e => rw [hs] at h; cases h
    | ok r => rw [hs] at h; cases h; exact fun x hx => mem_dropPositions _ _ _ _ hx
  | str n => cases h
  | other => cases h

theorem listSet_mem (l l' : List α) (i : Idx) (v : AssignArg α) (h : listSet l i v = .ok l') :
    ∀ x ∈ l', x ∈ l ∨ (∃ j, i = .int j) ∧ x = v.value ∨ (∃ s, i = .slice s) ∧ x ∈ v.iter.items := by
  cases i with
  | int i =>
    unfold listSet at h
    dsimp only at h
    split at h
    · cases h
      intro x hx
      rcases List.mem_or_eq_of_mem_set hx with hx | rfl
      · exact .inl hx
      · exact .inr (.inl ⟨⟨_, rfl⟩, rfl⟩)
    · cases h
  | slice s =>
    unfold listSet at h
    dsimp only at h
    split at h
    · cases h
    · split at h
      · cases h
      · split at h
        · cases h
          intro x hx
          rcases List.mem_append.1 hx with hx | hx
          · rcases List.mem_append.1 hx with hx | hx
            · exact .inl (List.mem_of_mem_take hx)
            · exact .inr (.inr ⟨⟨_, rfl⟩, hx⟩)
          · exact .inl (List.mem_of_mem_drop hx)
        · split at h
          · cases h
            intro x hx
            rcases mem_setPositions _ _ _ _ hx with hx | hx
            · exact .inr (.inr ⟨⟨_, rfl⟩, hx⟩)
            · exact .inl hx
          · cases h
  | str n => cases h
  | other => cases h

theorem listInsert_mem (l l' : List α) (i : Idx) (v : α) (h : listInsert l i v = .ok l') :
    ∀ x ∈ l', x ∈ l ∨ x = v := by
  cases i with
  | int i =>
    cases h
    intro x hx
    rcases List.mem_append.1 hx with hx | hx
    · exact .inl (List.mem_of_mem_take hx)
    · rcases List.mem_cons.1 hx with rfl | hx
      · exact .inr rfl
      · exact .inl (List.mem_of_mem_drop hx)
  | slice s => cases h
  | str n => cases h
  | other => cases h

theorem listPop_mem (l : List α) (r : List α × α) (i : Idx) (h : listPop l i = .ok r) : ∀ x ∈ r.1, x ∈ l := by
  cases i with
  | int i =>
    unfold listPop at h
    dsimp only at h
    split at h
    · cases h
    · split at h
      · cases h
        exact fun x hx => List.mem_of_mem_eraseIdx hx
      · cases h
  | slice s => cases h
  | str n => cases h
  | other => cases h

theorem listRemove_mem (eq : α → Bool) (l l' : List α) (h : listRemove eq l = .ok l') : ∀ x ∈ l', x ∈ l := by
  induction l generalizing l' with
  | nil => cases h
  | cons y l ih =>
    unfold listRemove at h
    split at h
    · cases h
      exact fun x hx => List.mem_cons_of_mem _ hx
    · cases hr : listRemove eq l with
      | error e => rw [hr] at h; cases h
      | ok l1 =>
        rw [hr] at h
        cases h
        intro x hx
        rcases List.mem_cons.1 hx with rfl | hx
        · exact List.mem_cons_self
        · exact List.mem_cons_of_mem _ (ih _ hr x hx)

theorem withoutName_ok (I : ObjInfo α) (name : Str) (l : List α) (h : OnlyItems I l) :
    withoutName I name l = .ok (l.filter fun x => decide (I.name x ≠ .ok name)) := by
  induction l with
  | nil => rfl
  | cons x l ih =>
    obtain ⟨hx, hl⟩ := List.forall_mem_cons.1 h
    obtain ⟨n, hn⟩ := I.name_ok x hx
    unfold withoutName
    rw [hn, ih hl]
    show Except.ok _ = _
    by_cases e : n = name
    · rw [if_pos e, List.filter_cons_of_neg]
      simp [hn, e]
    · rw [if_neg e, List.filter_cons_of_pos]
      simp [hn, e]

theorem contValidate_ok (I : ObjInfo α) (c : Cont α) (h : c.validate I = .ok ()) : OnlyItems I c.data := by
  unfold Cont.validate at h
  split at h
  · cases h
  · exact (checkItems_ok_iff I _).1 h

theorem validate_of (I : ObjInfo α) (c : Cont α) (hn : c.name ≠ []) (h : OnlyItems I c.data) :
    c.validate I = .ok () := by
  unfold Cont.validate
  rw [if_neg hn]
  exact (checkItems_ok_iff I _).2 h

theorem step_name (I : ObjInfo α) (c : Cont α) (op : ContOp α) : (c.step I op).1.name = c.name := by
  cases op with
  | delitem i => cases i <;> (unfold Cont.step; dsimp only; split <;> rfl)
  | append x => unfold Cont.step; dsimp only; split <;> rfl
  | insert i x =>
    unfold Cont.step
    dsimp only
    split
    · rfl
    · split <;> rfl
  | extend xs =>
    unfold Cont.step
    dsimp only
    split
    · rfl
    · split <;> rfl
  | setitem i v =>
    unfold Cont.step
    dsimp only
    split
    · rfl
    · split <;> rfl
  | pop i => unfold Cont.step; dsimp only; split <;> rfl
  | remove eq => unfold Cont.step; dsimp only; split <;> rfl
  | clear => rfl
  | reverse => rfl

/-- One call on a container of items: it does what the list does and leaves items, or it raises and changes
nothing, unless it is an `extend` or an assignment that raises. -/
theorem step_faithful (I : ObjInfo α) (c : Cont α) (op : ContOp α) (hn : c.name ≠ []) (h : OnlyItems I c.data)
    (hp : op.Proper I ∨ ∃ r, (c.step I op).2 = .ok r) :
    (∃ r, (c.step I op).2 = .ok r ∧ op.onList I c.data = .ok ((c.step I op).1.data, r) ∧
      OnlyItems I (c.step I op).1.data) ∨
    (∃ e, (c.step I op).2 = .error e) ∧ (c.step I op).1 = c := by
  have del : ∀ i, (∀ n, i ≠ .str n) → (∃ r, (c.step I (.delitem i)).2 = .ok r ∧
      (ContOp.delitem i).onList I c.data = .ok ((c.step I (.delitem i)).1.data, r) ∧
      OnlyItems I (c.step I (.delitem i)).1.data) ∨
      (∃ e, (c.step I (.delitem i)).2 = .error e) ∧ (c.step I (.delitem i)).1 = c := by
    intro i hi
    cases hl : listDel c.data i with
    | error e =>
      refine .inr ?_
      cases i with
      | str n => exact absurd rfl (hi n)
      | _ => simp [Cont.step, hl]
    | ok l =>
      refine .inl ⟨none, ?_⟩
      have hm : OnlyItems I l := fun x hx => h x (listDel_mem _ _ _ hl x hx)
      cases i with
      | str n => exact absurd rfl (hi n)
      | _ => simp [Cont.step, ContOp.onList, hl, Except.map, hm]
  cases op with
  | append x =>
    by_cases hx : OnlyItems I [x]
    · refine .inl ⟨none, ?_⟩
      have hi : OnlyItems I (c.data ++ [x]) := fun y hy => (List.mem_append.1 hy).elim (h y) (hx y)
      simp only [Cont.step, (checkItems_ok_iff I _).2 hx, ContOp.onList, true_and]
      exact hi
    · exact .inr (by simp [Cont.step, checkItems_error I _ hx])
  | insert i x =>
    by_cases hx : OnlyItems I [x]
    · cases hl : listInsert c.data i x with
      | error e => exact .inr (by simp [Cont.step, (checkItems_ok_iff I _).2 hx, hl])
      | ok l =>
        have hi : OnlyItems I l := fun y hy => (listInsert_mem _ _ _ _ hl y hy).elim (h y)
          fun e => hx y (e ▸ List.mem_cons_self)
        exact .inl ⟨none, by simp [Cont.step, (checkItems_ok_iff I _).2 hx, hl, ContOp.onList, Except.map, hi]⟩
    · exact .inr (by simp [Cont.step, checkItems_error I _ hx])
  | extend xs =>
    have hex : xs.err = none ∧ OnlyItems I (c.data ++ xs.items) := by
      rcases hp with ⟨he, hx⟩ | ⟨r, hr⟩
      · exact ⟨he, fun y hy => (List.mem_append.1 hy).elim (h y) (hx y)⟩
      · unfold Cont.step at hr
        dsimp only at hr
        split at hr
        · cases hr
        · split at hr
          · cases hr
          · rename_i he _ hv
            exact ⟨he, contValidate_ok I _ hv⟩
    refine .inl ⟨none, ?_⟩
    simp only [Cont.step, hex.1, validate_of I { c with data := c.data ++ xs.items } hn hex.2, ContOp.onList,
      true_and]
    exact hex.2
  | setitem i v =>
    cases hl : listSet c.data i v with
    | error e => exact .inr (by simp [Cont.step, hl])
    | ok l =>
      have hi : OnlyItems I l := by
        rcases hp with hx | ⟨r, hr⟩
        · intro y hy
          rcases listSet_mem _ _ _ _ hl y hy with hy | ⟨⟨j, rfl⟩, rfl⟩ | ⟨⟨s, rfl⟩, hy⟩
          · exact h y hy
          · exact hx
          · exact hx y hy
        · simp only [Cont.step, hl] at hr
          split at hr
          · cases hr
          · rename_i hv
            exact contValidate_ok I _ hv
      refine .inl ⟨none, ?_⟩
      simp only [Cont.step, hl, validate_of I { c with data := l } hn hi, ContOp.onList, Except.map, true_and]
      exact hi
  | delitem i =>
    cases i with
    | str n =>
      refine .inl ⟨none, ?_⟩
      simp only [Cont.step, withoutName_ok I n _ h, ContOp.onList, true_and]
      exact fun x hx => h x (List.mem_filter.1 hx).1
    | int j => exact del _ fun n => by simp
    | slice s => exact del _ fun n => by simp
    | other => exact del _ fun n => by simp
  | pop i =>
    cases hl : listPop c.data i with
    | error e => exact .inr (by simp [Cont.step, hl])
    | ok r =>
      have hi : OnlyItems I r.1 := fun x hx => h x (listPop_mem _ _ _ hl x hx)
      exact .inl ⟨some r.2, by simp [Cont.step, hl, ContOp.onList, Except.map, hi]⟩
  | remove eq =>
    cases hl : listRemove eq c.data with
    | error e => exact .inr (by simp [Cont.step, hl])
    | ok l =>
      have hi : OnlyItems I l := fun x hx => h x (listRemove_mem _ _ _ hl x hx)
      exact .inl ⟨none, by simp [Cont.step, hl, ContOp.onList, Except.map, hi]⟩
  | clear => exact .inl ⟨none, rfl, rfl, fun _ hx => nomatch hx⟩
  | reverse => exact .inl ⟨none, rfl, rfl, fun x hx => h x (List.mem_reverse.1 hx)⟩

theorem history_faithful (I : ObjInfo α) (ops : List (ContOp α)) (c : Cont α) (hn : c.name ≠ [])
    (h : OnlyItems I c.data)
    (hp : ∀ p ∈ (c.history I ops).2, p.1.Proper I ∨ ∃ r, p.2 = .ok r) :
    Faithful I c.data (c.history I ops).2 (c.history I ops).1.data := by
  induction ops generalizing c with
  | nil => exact .nil _ h
  | cons op ops ih =>
    unfold Cont.history at hp ⊢
    dsimp only at hp ⊢
    obtain ⟨h1, h2⟩ := List.forall_mem_cons.1 hp
    have hn' : (c.step I op).1.name ≠ [] := by rw [step_name]; exact hn
    rcases step_faithful I c op hn h h1 with ⟨r, hr, hl, hi⟩ | ⟨⟨e, he⟩, hc⟩
    · rw [hr]
      exact .ok _ _ _ _ _ _ h hl (ih _ hn' hi h2)
    · rw [he]
      have := ih _ hn' (by rw [hc]; exact h) h2
      rw [hc] at this ⊢
      exact .error _ _ _ _ _ h this

end Ics
